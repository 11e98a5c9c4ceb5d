import Verif.Chains.Props
import Verif.Policy.Said
/-
Property C236 on the whole way from identifier to metadata: `get_verified_trust_chains` and `apply_policies` of /repo/src/fedservice/entity/function/__init__.py (modelled in `Chains/Model`).
-/
namespace Fed.Chains
open Fed Verify

theorem policyForTypes_mem {E : SetEnum Val} {K : SetEnum String} {sups : List Policy.PStatement} {leaf : Policy.PStatement} {t : String} {r : Option Policy.Metadata} :
    ∀ {ts : List String} {m : Dict (Option Policy.Metadata)}, Policy.policyForTypes E K sups leaf ts = .ok m → m.get? t = some r → t ∈ ts
  | [], m, h, hr => by cases h; cases hr
  | t0 :: ts, m, h, hr => by
      unfold Policy.policyForTypes at h
      cases h1 : Policy.policyFor E K sups leaf t0 with
      | error e => rw [h1] at h; cases h
      | ok r0 =>
        rw [h1] at h
        simp only [ok_bind] at h
        cases h2 : Policy.policyForTypes E K sups leaf ts with
        | error e => rw [h2] at h; cases h
        | ok m' =>
          rw [h2] at h
          cases h
          rw [Dict.get?_cons] at hr
          split at hr
          · next e => cases e; exact List.mem_cons_self ..
          · exact List.mem_cons_of_mem _ (policyForTypes_mem h2 hr)

/-- C236 for a resolved entity: every value in the metadata of one of its trust chains has been said, for that claim, in a verified statement of the chain, unless somebody says the name of an operator used in the policies for the claim. Chains of more than the entity's own
configuration. -/
theorem C236_resolved_partial (V : Env) (st : State) (entity stopAt : String) (out : List TrustChain) (h : (getVerified V st entity stopAt).1 = .ok out) (tc : TrustChain) (ht : tc ∈ out)
    (sups : List Payload) (leaf : Payload) (hv : tc.verified = sups ++ [leaf]) (hne : sups ≠ []) (t c : String) (m : Dict Val) (v x : Val)
    (hno : ∀ n, Policy.OperatorUsed (sups.map toP) t c n → ¬ Policy.SaidInChain (sups.map toP) (toP leaf) t c (.str n))
    (hm : tc.metadata.get? t = some (.obj m)) (hc : m.get? c = some v) (hx : Policy.Part x v) : Policy.SaidInChain (sups.map toP) (toP leaf) t c x := by
  obtain ⟨f, ec, tcs, h1, h2, h3, -⟩ := getVerified_ok h
  obtain ⟨tc0, hm0, ha⟩ := (applyPolicies_mem h3).1 tc ht
  obtain ⟨leaf', md', e1, e2, ⟨e3, r, e4, rfl⟩ | ⟨e3, r, e4, rfl⟩⟩ := applyToChain_ok.1 ha
  · simp only at hv hm
    rw [hv] at e1 e4
    simp only [List.getLast?_append, List.getLast?_singleton, Option.some_or, Option.some.injEq] at e1
    subst e1
    rw [List.dropLast_concat] at e4
    unfold Policy.callPolicy at e4
    rw [get?_map_val] at hm
    cases hr : Dict.get? r t with
    | none => rw [hr] at hm; cases hm
    | some o =>
      rw [hr] at hm
      obtain ⟨o', e5, e6⟩ := policyForTypes_get e4 t (policyForTypes_mem e4 hr)
      rw [hr] at e6
      cases e6
      cases o with
      | none => cases hm
      | some m' =>
        cases hm
        exact Policy.C236_said_partial V.E V.K _ _ t c m v x hno e5 hc hx
  · exfalso
    simp only at hv
    rw [hv] at e3
    cases sups with
    | nil => exact hne rfl
    | cons _ _ => simp at e3

/-- The scope that `leaf` of the example federation is resolved to has been said by `ta`. -/
example : Policy.SaidInChain ([(Ex.about "https://ta" "https://im" Ex.taPolicy).payload, (Ex.about "https://im" "https://leaf").payload].map toP)
    (toP (Ex.conf "https://leaf" (some ["https://im"]) (Ex.rp (.str "admin"))).payload) "openid_relying_party" "scopes" (.str "openid") := by
  refine C236_resolved_partial (Ex.env (Ex.W 0)) Ex.st "https://leaf" "" [Ex.leafChain] Ex.leaf_resolved Ex.leafChain (by simp) _ _ rfl (by simp) "openid_relying_party" "scopes"
    [("scopes", .str "openid")] (.str "openid") (.str "openid") ?_ (by decide) (by decide) rfl
  have a1 : (toP (Ex.about "https://ta" "https://im" Ex.taPolicy).payload).about "openid_relying_party" "scopes" = some [("value", .str "openid")] := by decide +kernel
  have a2 : (toP (Ex.about "https://im" "https://leaf").payload).about "openid_relying_party" "scopes" = none := by decide +kernel
  have m1 : (toP (Ex.about "https://ta" "https://im" Ex.taPolicy).payload).metadata = [] := by decide +kernel
  have m2 : (toP (Ex.about "https://im" "https://leaf").payload).metadata = [] := by decide +kernel
  rintro n ⟨e, he, cp, hcp, hn⟩
  have hn' : n = "value" := by
    simp only [List.map_cons, List.map_nil, List.mem_cons, List.not_mem_nil, or_false] at he
    rcases he with rfl | rfl
    · rw [a1] at hcp; cases hcp; simpa [Dict.keys] using hn
    · rw [a2] at hcp; cases hcp
  subst hn'
  rintro (⟨md, v, h1, h2, h3⟩ | ⟨e, he, ⟨md, v, h1, h2, h3⟩ | ⟨cp, v, h1, h2, h3⟩⟩)
  · have : (toP (Ex.conf "https://leaf" (some ["https://im"]) (Ex.rp (.str "admin"))).payload).metadata.get? "openid_relying_party" = some [("scopes", .str "admin")] := by decide +kernel
    rw [this] at h1; cases h1
    have : Dict.get? [("scopes", Val.str "admin")] "scopes" = some (.str "admin") := by decide +kernel
    rw [this] at h2; cases h2
    exact absurd (show Val.str "value" = .str "admin" from h3) (by decide)
  · simp only [List.map_cons, List.map_nil, List.mem_cons, List.not_mem_nil, or_false] at he
    rcases he with rfl | rfl
    · rw [m1] at h1; cases h1
    · rw [m2] at h1; cases h1
  · simp only [List.map_cons, List.map_nil, List.mem_cons, List.not_mem_nil, or_false] at he
    rcases he with rfl | rfl
    · rw [a1] at h1; cases h1
      have f1 : Dict.get? [("value", Val.str "openid")] "value" = some (.str "openid") := by decide +kernel
      have f2 : Dict.get? [("value", Val.str "openid")] "add" = none := by decide +kernel
      have f3 : Dict.get? [("value", Val.str "openid")] "default" = none := by decide +kernel
      rw [f1, f2, f3] at h2
      rcases h2 with h2 | h2 | h2
      · cases h2; exact absurd (show Val.str "value" = .str "openid" from h3) (by decide)
      · cases h2
      · cases h2
    · rw [a2] at h1; cases h1

end Fed.Chains
