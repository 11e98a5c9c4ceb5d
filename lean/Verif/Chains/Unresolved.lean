import Verif.Chains.Liveness
/-
Property C109: the whole of it, which is false: a member of a well-run federation that satisfies every policy above it need not be resolved. Nothing of /repo is modelled here.
-/
namespace Fed.Chains
open Fed Verify

/-- C109 in full: in a well-run federation, whatever was collected before, an entity whose metadata satisfies every single policy above it (applying it succeeds and changes nothing) and that keeps to all
constraints gets a chain for each way up, with the metadata it declared. -/
def C109_full : Prop :=
  ∀ (V : Env) (F : Collect.Federation) (st : State) (now : Int) (h : List Collect.FRun) (stopAt entity : String) (D : Directory) (S : String → Prop) (rank : String → Nat),
    V.W = F.at now → F.Dated → F.PlainHints → F.Steady V.L.toCrypto V.P now →
    st.coll = Collect.runAll V.L.toCrypto V.P (h.map (Collect.FRun.run F)) → (h.Pairwise fun a b => a.time ≤ b.time) → (∀ r ∈ h, r.time ≤ now) → (∀ r ∈ h, Collect.Plain r.entity) →
    WellRun V.L V.P F now stopAt st.jar D S rank → S entity → Collect.Plain entity → rank entity < V.fuel →
    (D.cfg entity).payload.hints ≠ none → (D.cfg entity).payload.metadata ≠ none →
    (∀ p, Up D entity p → (∀ q ∈ (stmtsOf D entity p).map (·.payload), Constraints.UrlNames (toC q) ∧ ∀ n, (toC q).naming = some n → n.permitted ≠ none ∧ n.excluded ≠ none) ∧
      Constraints.UrlNames (toC (D.cfg entity).payload) ∧ Constraints.KeepsAll (((stmtsOf D entity p).map (·.payload)).map toC) (toC (D.cfg entity).payload)) →
    (∀ p, Up D entity p → ∀ s ∈ stmtsOf D entity p, ∀ t md, (D.cfg entity).payload.md.get? t = some md → Policy.applyPolicy V.E V.K md ((toP s.payload).rule t) = .ok md) →
    ∃ out, (getVerified V st entity stopAt).1 = .ok out ∧ ∀ p, Up D entity p → ∃ tc ∈ out, tc.chain = (stmtsOf D entity p ++ [D.cfg entity]).map some ∧
      ∀ t md, (D.cfg entity).payload.md.get? t = some md → tc.metadata.get? t = some (.obj md)

namespace Ex
/-- The federation of the example of C109, where `ta` demands the scope `a` and the authorities below it the scope `b`; the leaf has both. -/
def needs (s : String) : Dict Policy.MetadataPolicy := [("openid_relying_party", [("scopes", [("superset_of", .arr [.str s])])])]
def both109 : Directory where
  cfg e := conf e (hints109 e) (if e = "https://leaf" then rp (.arr [.str "a", .str "b"]) else fe true)
  about a e := about a e (if a = "https://ta" then needs "a" else needs "b")
  keys e := [keyOf e]
def FB109 : Collect.Federation where
  config e := if e ∈ ["https://leaf", "https://im", "https://im2", "https://ta"] then .ok (some (both109.cfg e)) else .error .missingPage
  fetch _ a e := .ok (some (both109.about a e))

theorem upB109 {e : String} {p : List String} (h : Up both109 e p) : Up D109 e p := by
  induction h with
  | top h1 h2 h3 => exact .top h1 h2 h3
  | step h1 h2 _ ih => exact .step h1 h2 ih

theorem wellRunB109 : WellRun L { anchors := ["https://ta"] } FB109 0 "" [("https://ta", [1])] both109 S109 rank109 where
  config e he := by unfold S109 at he; simp only [FB109, if_pos he]
  self e _ := ⟨rfl, _, rfl, fun _ h => h⟩
  selfSigned e _ := ⟨keyOf e, by simp [both109], rfl, by simp [L, both109, conf]⟩
  current e _ := by simp [L, notExpired, both109, conf]
  fresh e _ := ⟨10000, rfl, by decide⟩
  notStop e hs he _ := by rintro rfl; revert he; unfold S109; decide
  hints e hs _ hh := by
    rcases hints109_some hh with ⟨rfl, rfl⟩ | ⟨rfl, rfl⟩ | ⟨rfl, rfl⟩ <;> refine ⟨by simp, ?_⟩ <;> unfold S109 <;> decide
  served e hs a _ hh ha := by
    refine ⟨[("federation_fetch_endpoint", .str "fetch")], .str "fetch", ?_, by decide, by decide, rfl⟩
    rcases hints109_some hh with ⟨rfl, rfl⟩ | ⟨rfl, rfl⟩ | ⟨rfl, rfl⟩ <;> revert a <;> decide
  stated e hs a _ hh ha := ⟨rfl, rfl, ⟨_, rfl, fun _ h => h⟩, _, rfl⟩
  signed e hs a _ hh ha := ⟨keyOf a, by simp [both109], rfl, by simp [L, both109, about]⟩
  anchors e he hn := by
    unfold S109 at he
    simp only [List.mem_cons, List.not_mem_nil, or_false] at he
    rcases he with rfl | rfl | rfl | rfl
    · exact absurd hn (by decide)
    · exact absurd hn (by decide)
    · exact absurd hn (by decide)
    · decide
end Ex

/-- C109 is violated: with everything in order, and metadata that satisfies both the anchor's policy and the intermediate's, the entity is not resolved. -/
theorem C109_policies_violation : ¬ C109_full := by
  intro hfull
  have hu : ∀ s : String, (Constraints.labelsOf s).isSome = true → Constraints.IsUrl s := fun s hs => Constraints.isUrl_iff.2 (Option.isSome_iff_exists.1 hs)
  obtain ⟨out, ho, -⟩ := hfull (Ex.env (Ex.FB109.at 0)) Ex.FB109 Ex.st 0 [] "" "https://leaf" Ex.both109 Ex.S109 Ex.rank109 rfl
    (by
      intro k j h
      simp only [Ex.FB109] at h
      split at h
      · cases h; exact ⟨_, rfl⟩
      · cases h)
    (by
      intro k j hs h hh
      simp only [Ex.FB109] at h
      split at h
      · cases h
        rcases Ex.hints109_some hh with ⟨rfl, rfl⟩ | ⟨rfl, rfl⟩ | ⟨rfl, rfl⟩ <;> decide
      · cases h)
    (by
      intro k j h t t' _ hn _
      simp only [Ex.FB109] at h
      split at h
      · cases h
        simp only [Ex.env, Ex.L, notExpired, Ex.both109, Ex.conf, decide_eq_true_eq]
        omega
      · cases h)
    rfl (by simp) (by simp) (by simp) Ex.wellRunB109 (by unfold Ex.S109; decide) (by decide) (by decide) (by decide) (by decide)
    (by
      intro p hp
      have none : ∀ s ∈ stmtsOf Ex.both109 "https://leaf" p, s.payload.constraints = none ∧ Constraints.IsUrl s.payload.sub := by
        intro s hs
        rcases Ex.up109 (Ex.upB109 hp) with rfl | rfl <;> simp only [stmtsOf, List.nil_append, List.cons_append, List.mem_cons, List.not_mem_nil, or_false] at hs <;>
          rcases hs with rfl | rfl <;> exact ⟨rfl, hu _ (by decide +kernel)⟩
      have noneC : ∀ st ∈ ((stmtsOf Ex.both109 "https://leaf" p).map (·.payload)).map toC, st.constraints = .none := by
        intro st hst
        simp only [List.map_map, List.mem_map] at hst
        obtain ⟨s, hs, rfl⟩ := hst
        exact (none s hs).1
      have keeps : ∀ (s : String) (sts : List Constraints.CStatement), (∀ st ∈ sts, st.constraints = .none) → Constraints.Keeps s sts := by
        intro s sts h st hst
        simp [Constraints.CStatement.excluded, Constraints.CStatement.permitted, Constraints.CStatement.naming, h st hst]
      refine ⟨?_, ⟨hu _ (by decide +kernel), fun x hx => (by cases hx), fun x hx => (by cases hx)⟩, ?_, ?_, keeps _ _ noneC⟩
      · intro q hq
        obtain ⟨s, hs, rfl⟩ := List.mem_map.1 hq
        obtain ⟨h1, h2⟩ := none s hs
        refine ⟨⟨h2, ?_, ?_⟩, ?_⟩ <;> simp [toC, Constraints.CStatement.excluded, Constraints.CStatement.permitted, Constraints.CStatement.naming, h1]
      · intro pre st post c m hs hc _
        rw [noneC st (by rw [hs]; simp)] at hc
        cases hc
      · intro pre st post hs
        refine keeps _ _ fun st' hst' => noneC st' ?_
        rw [hs]
        simp only [List.mem_append, List.mem_cons, List.not_mem_nil, or_false] at hst' ⊢
        exact hst'.elim Or.inl fun h => Or.inr (Or.inl h))
    (by
      intro p hp s hs t md ht
      have ht : t = "openid_relying_party" ∧ md = [("scopes", .arr [.str "a", .str "b"])] := by
        change Dict.get? [("openid_relying_party", _)] t = some md at ht
        rw [Dict.get?_cons] at ht
        split at ht
        · next h => exact ⟨h.symm, (Option.some.inj ht).symm⟩
        · cases ht
      obtain ⟨rfl, rfl⟩ := ht
      rcases Ex.up109 (Ex.upB109 hp) with rfl | rfl <;> simp only [stmtsOf, List.nil_append, List.cons_append, List.mem_cons, List.not_mem_nil, or_false] at hs <;>
        rcases hs with rfl | rfl <;> decide +kernel)
  have : (getVerified (Ex.env (Ex.FB109.at 0)) Ex.st "https://leaf").1 = .error .policyError := by decide +kernel
  rw [this] at ho
  cases ho

end Fed.Chains
