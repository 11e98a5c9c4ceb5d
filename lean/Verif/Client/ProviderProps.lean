import Verif.Client.Provider
import Verif.Client.RegisterProps
/-
Properties C119-C121: what a client takes for the metadata and the keys of a provider, and how it decides to register.
-/
namespace Fed.Client
open Fed Verify

/-! ## Helpers -/

theorem takeMetadata_ok {priority : List String} {st st' : PState} {tcs : List TrustChain} {info : Dict Val} (h : takeMetadata priority st tcs = (.ok info, st')) :
    ∃ tc s iss, Chains.saveTrustChains st.chains tcs = (.ok (), s) ∧ Chains.pickTrustChain priority tcs = .ok tc ∧ tc.metadata.get? "openid_provider" = some (.obj info) ∧
      Dict.get? info "issuer" = some (.str iss) ∧
      st' = { st with chains := s, anchor := some tc.anchor, byIssuer := st.byIssuer.set iss tc, info := info, imported := st.imported ++ importKeys info iss } := by
  unfold takeMetadata at h
  cases hs : Chains.saveTrustChains st.chains tcs with
  | mk r s =>
    rw [hs] at h
    cases r with
    | error e => cases h
    | ok u =>
      simp only at h
      cases hp : Chains.pickTrustChain priority tcs with
      | error e => rw [hp] at h; cases h
      | ok tc =>
        rw [hp] at h
        simp only at h
        cases hm : tc.metadata.get? "openid_provider" with
        | none => rw [hm] at h; cases h
        | some v =>
          rw [hm] at h
          cases v with
          | obj m =>
            simp only at h
            cases hi : Dict.get? m "issuer" with
            | none => rw [hi] at h; cases h
            | some w =>
              rw [hi] at h
              cases w with
              | str iss =>
                simp only [Prod.mk.injEq, Except.ok.injEq] at h
                obtain ⟨rfl, rfl⟩ := h
                exact ⟨tc, s, iss, rfl, rfl, hm, hi, rfl⟩
              | _ => cases h
          | _ => cases h

theorem takeMetadata_error {priority : List String} {st st' : PState} {tcs : List TrustChain} {e : PyErr} (h : takeMetadata priority st tcs = (.error e, st')) :
    st'.info = st.info ∧ st'.imported = st.imported ∧ st'.byIssuer = st.byIssuer := by
  unfold takeMetadata at h
  generalize Chains.saveTrustChains st.chains tcs = r at h
  obtain ⟨r, s⟩ := r
  cases r with
  | error e => simp only [Prod.mk.injEq] at h; rw [← h.2]; simp
  | ok u =>
    simp only at h
    split at h
    · simp only [Prod.mk.injEq] at h; rw [← h.2]; simp
    · split at h
      · simp only [Prod.mk.injEq] at h; rw [← h.2]; simp
      · split at h
        · simp only [Prod.mk.injEq] at h; rw [← h.2]; simp
        · cases h
        · simp only [Prod.mk.injEq] at h; rw [← h.2]; simp
      · simp only [Prod.mk.injEq] at h; rw [← h.2]; simp

theorem collectMetadata_ok {V : Chains.Env} {priority : List String} {st st' : PState} {info : Dict Val} (h : collectMetadata V priority st = (.ok info, st')) :
    ∃ out fed, Chains.getVerified V st.fed st.issuer = (.ok out, fed) ∧ takeMetadata priority { st with fed := fed } out = (.ok info, st') := by
  unfold collectMetadata at h
  cases hg : Chains.getVerified V st.fed st.issuer with
  | mk r fed =>
    rw [hg] at h
    cases r with
    | error e => cases h
    | ok out =>
      cases out with
      | nil => cases h
      | cons tc tcs => exact ⟨_, _, rfl, h⟩

/-! ## C119 -/

/-- C119 in full: the metadata a client takes for that of the provider it asked for names that provider, and keys are loaded for that provider only. -/
def C119_full : Prop :=
  ∀ (V : Chains.Env) (priority : List String) (st st' : PState) (info : Dict Val), collectMetadata V priority st = (.ok info, st') →
    Dict.get? info "issuer" = some (.str st.issuer) ∧ ∀ p ∈ st'.imported, p ∈ st.imported ∨ p.1 = st.issuer

namespace Ex
/-- The provider claims to be `https://victim`. -/
def W119 : Collect.World where
  now := 0
  config
    | "https://op" => .ok (some (Chains.Ex.conf "https://op" (some ["https://ta"]) [("openid_provider", [("issuer", .str "https://victim"), ("jwks", .str "keys of op")])]))
    | e => W.config e
  fetch := W.fetch
def pst : PState := { fed := Chains.Ex.st, issuer := "https://op" }
end Ex

/-- C119 does not hold: a provider that claims to be another one gets its keys loaded as those of the other. -/
theorem C119_other_issuer_violation : ¬ C119_full := by
  intro h
  have := h (Chains.Ex.env Ex.W119) [] Ex.pst (collectMetadata (Chains.Ex.env Ex.W119) [] Ex.pst).2 [("issuer", .str "https://victim"), ("jwks", .str "keys of op")]
    (Prod.ext (by decide +kernel) rfl)
  exact absurd this.1 (by decide)

/-- What is loaded in this case. -/
example : (collectMetadata (Chains.Ex.env Ex.W119) [] Ex.pst).2.imported = [("https://victim", .jwks (.str "keys of op"))] := by decide +kernel

/-- C119 as far as it holds: the metadata is that of type `openid_provider` of a verified chain of the provider asked for, with its policies applied, and is what is kept;
keys are loaded for one issuer only, the one named in it, and only the ones it gives. Missing: that this is the provider asked for. -/
theorem C119_resolved_partial (V : Chains.Env) (priority : List String) (st st' : PState) (info : Dict Val) (h : collectMetadata V priority st = (.ok info, st')) :
    st'.info = info ∧ (∃ out tc, (Chains.getVerified V st.fed st.issuer).1 = .ok out ∧ tc ∈ out ∧ Chains.Provenance V st.fed st.issuer tc ∧
      tc.metadata.get? "openid_provider" = some (.obj info) ∧
      ∀ sups leaf, tc.verified = sups ++ [leaf] → ∀ s ∈ sups, ∀ md mp cl p x, leaf.md.get? "openid_provider" = some md → s.policy.get? "openid_provider" = some mp → mp.get? cl = some p →
        p.get? "value" = some x → Dict.get? info cl = some x) ∧
    ∃ iss, Dict.get? info "issuer" = some (.str iss) ∧ ∀ q, q ∈ st'.imported ↔ q ∈ st.imported ∨ q.1 = iss ∧
      ((∃ u, Dict.get? info "jwks_uri" = some u ∧ q.2 = .uri u) ∨ (Dict.get? info "jwks_uri" = none ∧ ∃ k, Dict.get? info "jwks" = some k ∧ q.2 = .jwks k)) := by
  obtain ⟨out, fed, h1, h2⟩ := collectMetadata_ok h
  obtain ⟨tc, s, iss, h3, h4, h5, h6, rfl⟩ := takeMetadata_ok h2
  have hin := Registration.pick_mem h4
  have h1' : (Chains.getVerified V st.fed st.issuer).1 = .ok out := by rw [h1]
  refine ⟨rfl, ⟨out, tc, h1', hin, Chains.C76_provenance _ _ _ _ h1' tc hin, h5, fun sups leaf hv sup hs md mp cl p x g1 g2 g3 g4 => ?_⟩, iss, h6, fun q => ?_⟩
  · obtain ⟨m, g5, g6⟩ := Chains.C79_fixed_value_arrives V st.fed st.issuer out h1' tc hin sups leaf hv sup hs _ cl md g1 mp p x g2 g3 g4
    rw [h5] at g5
    cases g5
    exact g6
  · simp only [List.mem_append]
    unfold importKeys
    obtain ⟨q1, q2⟩ := q
    cases hu : Dict.get? info "jwks_uri" with
    | some u => simp [Prod.ext_iff]
    | none =>
      cases hk : Dict.get? info "jwks" with
      | some k => simp [Prod.ext_iff]
      | none => simp

/-- And if there is no such chain, or anything else is missing, nothing is taken over. -/
theorem C119_refused_partial (V : Chains.Env) (priority : List String) (st st' : PState) (e : PyErr) (h : collectMetadata V priority st = (.error e, st')) :
    st'.info = st.info ∧ st'.imported = st.imported ∧ st'.byIssuer = st.byIssuer := by
  unfold collectMetadata at h
  cases hg : Chains.getVerified V st.fed st.issuer with
  | mk r fed =>
    rw [hg] at h
    cases r with
    | error e => simp only [Prod.mk.injEq] at h; rw [← h.2]; simp
    | ok out =>
      cases out with
      | nil => simp only [Prod.mk.injEq] at h; rw [← h.2]; simp
      | cons tc tcs =>
        obtain ⟨h1, h2, h3⟩ := takeMetadata_error (st := { st with fed := fed }) h
        exact ⟨h1, h2, h3⟩

/-- A provider that is not in the federation. -/
example : (collectMetadata (Chains.Ex.env Ex.W) [] { Ex.pst with issuer := "https://ta" }).1.isOk = false := by decide +kernel

/-! ## C120 -/

/-- The types of registration the provider supports, according to the stored chain that is looked at. -/
def Supports (priority : List String) (st : PState) (t : String) : Prop :=
  ∃ tc m ts, Chains.pickStored priority st.chains st.issuer = .ok tc ∧ tc.metadata.get? "openid_provider" = some (.obj m) ∧
    Dict.get? m "client_registration_types_supported" = some (.arr ts) ∧ Val.str t ∈ ts

/-- C120 in full: the client registers explicitly only if both support it, at the endpoint the provider names, and it does not register only if both support automatic registration. -/
def C120_full : Prop :=
  ∀ (priority ability : List String) (name : Option String) (st : PState) (ep : Val),
    (doClientRegistration priority ability name st = .ok (.explicit ep) → "explicit" ∈ ability ∧ Supports priority st "explicit" ∧ ∃ n, name = some n ∧ st.info.get? n = some ep) ∧
    (doClientRegistration priority ability name st = .ok .nothing → "automatic" ∈ ability ∧ Supports priority st "automatic")

theorem nodup_eraseDups (n : Nat) (l : List String) (h : l.length = n) : l.eraseDups.Nodup := by
  induction n using Nat.strongRecOn generalizing l with
  | _ n ih =>
    cases l with
    | nil => simp
    | cons a l =>
      rw [List.eraseDups_cons, List.nodup_cons]
      refine ⟨fun ha => ?_, ih _ ?_ _ rfl⟩
      · rw [List.mem_eraseDups] at ha
        simp [List.mem_filter] at ha
      · rw [← h]
        exact Nat.lt_succ_of_le (List.length_filter_le ..)

/-- The cases of `doClientRegistration`. -/
theorem register_ok {priority ability : List String} {name : Option String} {st : PState} {r : Registering} (h : doClientRegistration priority ability name st = .ok r) :
    ∃ tc m ts, Chains.pickStored priority st.chains st.issuer = .ok tc ∧ tc.metadata.get? "openid_provider" = some (.obj m) ∧
      Dict.get? m "client_registration_types_supported" = some (.arr ts) ∧ (∃ t ∈ ability, Val.str t ∈ ts) ∧
      ((r = .nothing ∧ ∀ t, (t ∈ ability ∧ Val.str t ∈ ts) ↔ t = "automatic") ∨
       ((∃ t, t ≠ "automatic" ∧ t ∈ ability ∧ Val.str t ∈ ts) ∧ ((name = none ∧ r = .mapped) ∨ ∃ n ep, name = some n ∧ st.info.get? n = some ep ∧ r = .explicit ep))) := by
  unfold doClientRegistration at h
  split at h
  · cases h
  · rename_i tc htc
    split at h
    · cases h
    · rename_i m hm
      split at h
      · cases h
      · rename_i ts hts
        simp only at h
        refine ⟨tc, m, ts, htc, hm, hts, ?_⟩
        have hmem : ∀ t, t ∈ ability.eraseDups.filter (fun t => ts.contains (.str t)) ↔ t ∈ ability ∧ Val.str t ∈ ts := by
          intro t; simp [List.mem_filter]
        have hnd : (ability.eraseDups.filter fun t => ts.contains (.str t)).Nodup := (nodup_eraseDups _ _ rfl).sublist List.filter_sublist
        generalize ability.eraseDups.filter (fun t => ts.contains (.str t)) = possible at h hmem hnd
        split at h
        · cases h
        · rename_i hne
          have hex : ∃ t, t ∈ possible := by
            cases possible with
            | nil => exact absurd rfl hne
            | cons a l => exact ⟨a, by simp⟩
          obtain ⟨t0, ht0⟩ := hex
          refine ⟨⟨t0, (hmem t0).1 ht0⟩, ?_⟩
          split at h
          · rename_i hc
            simp only [Except.ok.injEq] at h
            simp only [Bool.and_eq_true, decide_eq_true_eq] at hc
            refine Or.inl ⟨h.symm, fun t => ?_⟩
            rw [← hmem]
            match possible, hc with
            | [a], hc =>
              have : a = "automatic" := by simpa [eq_comm] using hc.2
              simp [this]
          · rename_i hc
            right
            refine ⟨?_, ?_⟩
            · refine Classical.byContradiction fun hno => ?_
              have hall : ∀ t ∈ possible, t = "automatic" := fun t ht => Classical.byContradiction fun hne' => hno ⟨t, hne', (hmem t).1 ht⟩
              apply hc
              match possible, hall, hnd, hne with
              | [a], hall, _, _ => simp [hall a (by simp)]
              | a :: b :: l, hall, hnd, _ =>
                rw [hall a (by simp), hall b (by simp)] at hnd
                simp at hnd
            · split at h
              · simp only [Except.ok.injEq] at h
                exact Or.inl ⟨rfl, h.symm⟩
              · rename_i n
                split at h
                · cases h
                · rename_i ep hep
                  simp only [Except.ok.injEq] at h
                  exact Or.inr ⟨n, ep, rfl, hep, h.symm⟩
      · cases h
    · cases h

namespace Ex
/-- A stored chain of a provider that supports the types `ts`. -/
def pst120 (ts : List String) : PState :=
  { pst with info := [("federation_registration_endpoint", .str "https://op/reg")],
             chains := [("https://op", [("https://ta", { Chains.Ex.leafChain with metadata := [("openid_provider", .obj [("client_registration_types_supported", .arr (ts.map .str))])] })])] }
end Ex

/-- C120 does not hold: with another type of registration in common beside automatic registration, explicit registration is used. -/
theorem C120_other_type_violation : ¬ C120_full := by
  intro h
  have := ((h [] ["automatic", "dynamic"] (some "federation_registration_endpoint") (Ex.pst120 ["automatic", "dynamic"]) (.str "https://op/reg")).1 (by decide +kernel)).1
  exact absurd this (by decide)

/-- C120 for clients that know of no type but these two. -/
theorem C120_two_types_partial (priority ability : List String) (name : Option String) (st : PState) (ep : Val) (ha : ∀ t ∈ ability, t = "automatic" ∨ t = "explicit") :
    (doClientRegistration priority ability name st = .ok (.explicit ep) → "explicit" ∈ ability ∧ Supports priority st "explicit" ∧ ∃ n, name = some n ∧ st.info.get? n = some ep) ∧
    (doClientRegistration priority ability name st = .ok .nothing → "automatic" ∈ ability ∧ Supports priority st "automatic" ∧ ¬ ("explicit" ∈ ability ∧ Supports priority st "explicit")) := by
  refine ⟨fun h => ?_, fun h => ?_⟩
  · obtain ⟨tc, m, ts, h1, h2, h3, -, h4 | ⟨⟨t, h4, h5, h6⟩, h7⟩⟩ := register_ok h
    · cases h4.1
    · rcases ha t h5 with rfl | rfl
      · exact absurd rfl h4
      · refine ⟨h5, ⟨tc, m, ts, h1, h2, h3, h6⟩, ?_⟩
        rcases h7 with ⟨-, h7⟩ | ⟨n, ep', h7, h8, h9⟩
        · cases h7
        · cases h9; exact ⟨n, h7, h8⟩
  · obtain ⟨tc, m, ts, h1, h2, h3, -, ⟨-, h4⟩ | ⟨-, h7⟩⟩ := register_ok h
    · refine ⟨((h4 _).2 rfl).1, ⟨tc, m, ts, h1, h2, h3, ((h4 _).2 rfl).2⟩, ?_⟩
      rintro ⟨h5, tc', m', ts', g1, g2, g3, g4⟩
      rw [h1] at g1; cases g1
      rw [h2] at g2; cases g2
      rw [h3] at g3; cases g3
      exact absurd ((h4 "explicit").1 ⟨h5, g4⟩) (by decide)
    · rcases h7 with ⟨-, h7⟩ | ⟨_, _, -, -, h7⟩ <;> cases h7

/-- And whatever the types: if there is none in common, the client refuses. -/
theorem C120_none_partial (priority ability : List String) (name : Option String) (st : PState) (r : Registering) (h : doClientRegistration priority ability name st = .ok r) :
    ∃ t ∈ ability, Supports priority st t := by
  obtain ⟨tc, m, ts, h1, h2, h3, ⟨t, h4, h5⟩, -⟩ := register_ok h
  exact ⟨t, h4, tc, m, ts, h1, h2, h3, h5⟩

example : doClientRegistration [] ["automatic", "explicit"] (some "federation_registration_endpoint") (Ex.pst120 ["explicit"]) = .ok (.explicit (.str "https://op/reg")) ∧
    doClientRegistration [] ["automatic", "explicit"] (some "federation_registration_endpoint") (Ex.pst120 ["automatic"]) = .ok .nothing ∧
    doClientRegistration [] ["automatic"] (some "federation_registration_endpoint") (Ex.pst120 ["explicit"]) = .error .valueError := by decide +kernel

/-! ## C121 -/

/-- C121 in full: how to register is decided by the same metadata that was taken for that of the provider. -/
def C121_full : Prop :=
  ∀ (V : Chains.Env) (priority : List String) (st st' : PState) (info : Dict Val) (tc : TrustChain), collectMetadata V priority st = (.ok info, st') →
    Chains.pickStored priority st'.chains st'.issuer = .ok tc → tc.metadata.get? "openid_provider" = some (.obj info)

namespace Ex
/-- The provider is below `ta` and `ta2`; `ta` allows explicit registration only. -/
def W121 : Collect.World where
  now := 0
  config
    | "https://ta2" => .ok (some (Chains.Ex.conf "https://ta2" none (Chains.Ex.fe true)))
    | "https://op" => .ok (some (Chains.Ex.conf "https://op" (some ["https://ta", "https://ta2"])
        [("openid_provider", [("issuer", .str "https://op"), ("client_registration_types_supported", .arr [.str "automatic", .str "explicit"])])]))
    | e => W.config e
  fetch _ a e := .ok (some (Chains.Ex.about a e (if a = "https://ta" then [("openid_provider", [("client_registration_types_supported", [("value", .arr [.str "explicit"])])])] else [])))
def V121 : Chains.Env := { Chains.Ex.env W121 with P := { anchors := ["https://ta", "https://ta2"] } }
def pst121 : PState := { fed := { jar := [("https://ta", [1]), ("https://ta2", [9])] }, issuer := "https://op" }
end Ex

/-- C121 does not hold: the provider's metadata is that of the trust anchor with priority, the types of registration those of the first. -/
theorem C121_priority_violation : ¬ C121_full := by
  intro h
  have hp : ((Chains.pickStored ["https://ta2", "https://ta"] (collectMetadata Ex.V121 ["https://ta2", "https://ta"] Ex.pst121).2.chains "https://op").toOption.map (·.metadata)) =
      some [("openid_provider", .obj [("issuer", .str "https://op"), ("client_registration_types_supported", .arr [.str "explicit"])])] := by decide +kernel
  generalize hr : Chains.pickStored ["https://ta2", "https://ta"] (collectMetadata Ex.V121 ["https://ta2", "https://ta"] Ex.pst121).2.chains "https://op" = r at hp
  cases r with
  | error e => cases hp
  | ok tc =>
    simp only [Except.toOption, Option.map_some, Option.some.injEq] at hp
    have := h Ex.V121 ["https://ta2", "https://ta"] Ex.pst121 (collectMetadata Ex.V121 ["https://ta2", "https://ta"] Ex.pst121).2
      [("issuer", .str "https://op"), ("client_registration_types_supported", .arr [.str "automatic", .str "explicit"])] tc
      (Prod.ext (by decide +kernel) rfl) (by
        rw [← hr]
        congr 1)
    rw [hp] at this
    exact absurd this (by decide)

/-- C121 for a provider with one chain, of which none was stored before. -/
theorem C121_single_partial (V : Chains.Env) (priority : List String) (st st' : PState) (info : Dict Val) (tc tc0 : TrustChain) (hnew : st.chains.get? st.issuer = none)
    (hone : (Chains.getVerified V st.fed st.issuer).1 = .ok [tc0]) (h : collectMetadata V priority st = (.ok info, st'))
    (hp : Chains.pickStored priority st'.chains st'.issuer = .ok tc) : tc.metadata.get? "openid_provider" = some (.obj info) := by
  obtain ⟨out, fed, h1, h2⟩ := collectMetadata_ok h
  obtain ⟨tc', s, iss, h3, h4, h5, h6, rfl⟩ := takeMetadata_ok h2
  rw [h1] at hone
  simp only [Except.ok.injEq] at hone
  subst hone
  simp only at h3 hp
  have : tc' = tc0 := by
    have := Registration.pick_mem h4
    simpa using this
  subst this
  unfold Chains.saveTrustChains Chains.chains2dict at h3
  simp only [Chains.chains2dictLoop, Dict.get?_nil, Dict.set, Chains.saveLoop] at h3
  cases hpth : tc'.issPath with
  | nil => rw [hpth] at h3; cases h3
  | cons e es =>
    rw [hpth] at h3
    simp only at h3
    cases he : st.chains.get? e with
    | none =>
      rw [he] at h3
      simp only [Prod.mk.injEq, true_and] at h3
      subst h3
      unfold Chains.pickStored at hp
      rw [Dict.get?_set] at hp
      by_cases hei : e = st.issuer
      · rw [if_pos hei] at hp
        simp only [Except.ok.injEq] at hp
        rw [← hp]; exact h5
      · rw [if_neg hei, hnew] at hp
        cases hp
    | some d =>
      rw [he] at h3
      simp only [Prod.mk.injEq, true_and] at h3
      subst h3
      unfold Chains.pickStored at hp
      rw [Dict.get?_set] at hp
      by_cases hei : e = st.issuer
      · rw [← hei, he] at hnew; cases hnew
      · rw [if_neg hei, hnew] at hp
        cases hp

/-! ## C122 -/

theorem setEndpoints_get {names : List String} {info d : Dict Val} (hn : (Dict.keys info).Nodup) (k : String) :
    (setEndpoints names info d).get? k = if k.endsWith "_endpoint" = true ∧ k ∈ names ∧ k ∈ Dict.keys info then info.get? k else d.get? k := by
  unfold setEndpoints
  induction info generalizing d with
  | nil => simp [Dict.keys]
  | cons p info ih =>
    obtain ⟨q, v⟩ := p
    have hn' : q ∉ Dict.keys info ∧ (Dict.keys info).Nodup := by simpa [Dict.keys] using hn
    rw [List.foldl_cons, ih hn'.2]
    have hkeys : ∀ x, x ∈ Dict.keys ((q, v) :: info) ↔ x = q ∨ x ∈ Dict.keys info := by intro x; simp [Dict.keys]
    simp only [hkeys, Dict.get?_cons]
    by_cases hkq : k = q
    · subst hkq
      by_cases hc : k.endsWith "_endpoint" = true ∧ k ∈ names
      · simp [hc.1, hc.2, hn'.1]
      · have hb : ¬ (k.endsWith "_endpoint" && names.contains k) = true := by simpa using hc
        simp only [if_neg hb]
        rw [if_neg (fun h => hc ⟨h.1, h.2.1⟩), if_neg (fun h => hc ⟨h.1, h.2.1⟩)]
    · have hqk : ¬ q = k := fun h => hkq h.symm
      simp only [hkq, hqk, false_or, if_false]
      split
      · rfl
      · split
        · rw [Dict.get?_set_ne _ _ hqk]
        · rfl

/-- More than an issuer is configured. -/
def Configured (info : Dict Val) : Prop := info ≠ [] ∧ ∀ v, info ≠ [("issuer", v)]

theorem doProviderInfo_configured {V : Chains.Env} {priority names : List String} {st : PState} (hc : Configured st.info) :
    doProviderInfo V priority names st =
      (let st := { st with endpoints := setEndpoints names st.info st.endpoints }
       match st.info.get? "keys" with
       | some (.obj ks) =>
         match configuredKeysLoop st.issuer ks st.imported with
         | (.error e, im) => (.error e, { st with imported := im })
         | (.ok (), im) => (.ok (issuerOf st), { st with imported := im })
       | _ => (.ok (issuerOf st), st)) := by
  unfold doProviderInfo
  split
  · rename_i h; exact absurd h hc.1
  · rename_i v h; exact absurd h (hc.2 v)
  · rfl

/-- C122: metadata of a provider that is configured is used as it is, without asking the federation: every service whose endpoint is in it gets that one, the others keep theirs, and the
issuer returned is the one in it, or the client's. -/
theorem C122_configured (V : Chains.Env) (priority names : List String) (st st' : PState) (r : Except PyErr Val) (hc : Configured st.info) (hn : (Dict.keys st.info).Nodup)
    (h : doProviderInfo V priority names st = (r, st')) :
    st'.info = st.info ∧ st'.fed = st.fed ∧ st'.chains = st.chains ∧ (∀ v, r = .ok v → v = (st.info.get? "issuer").getD (.str st.issuer)) ∧
    ∀ k, st'.endpoints.get? k = if k.endsWith "_endpoint" = true ∧ k ∈ names ∧ k ∈ Dict.keys st.info then st.info.get? k else st.endpoints.get? k := by
  rw [doProviderInfo_configured hc] at h
  simp only at h
  split at h
  · split at h
    · simp only [Prod.mk.injEq] at h
      obtain ⟨rfl, rfl⟩ := h
      exact ⟨rfl, rfl, rfl, fun v hv => (nomatch hv), fun k => setEndpoints_get hn k⟩
    · simp only [Prod.mk.injEq] at h
      obtain ⟨rfl, rfl⟩ := h
      exact ⟨rfl, rfl, rfl, fun v hv => by cases hv; rfl, fun k => setEndpoints_get hn k⟩
  · simp only [Prod.mk.injEq] at h
    obtain ⟨rfl, rfl⟩ := h
    exact ⟨rfl, rfl, rfl, fun v hv => by cases hv; rfl, fun k => setEndpoints_get hn k⟩

theorem configuredKeysLoop_issuers {issuer : String} {ks : List (String × Val)} {acc im : List (String × KeySource)} {r : Except PyErr Unit}
    (h : configuredKeysLoop issuer ks acc = (r, im)) : ∀ q ∈ im, q ∈ acc ∨ q.1 = issuer ∨ ∃ d, ("url", Val.obj d) ∈ ks ∧ ∃ u, (q.1, u) ∈ d ∧ q.2 = .uri u := by
  induction ks generalizing acc with
  | nil => simp only [configuredKeysLoop, Prod.mk.injEq] at h; rw [← h.2]; exact fun q hq => Or.inl hq
  | cons p ks ih =>
    obtain ⟨typ, spec⟩ := p
    unfold configuredKeysLoop at h
    split at h
    · simp only [Prod.mk.injEq] at h; rw [← h.2]; exact fun q hq => Or.inl hq
    · rename_i l hl
      intro q hq
      rcases ih h q hq with h1 | h1 | ⟨d, h1, h2⟩
      · rcases List.mem_append.1 h1 with h1 | h1
        · exact Or.inl h1
        · unfold configuredKeys at hl
          simp only at hl
          split at hl
          · rename_i ht
            subst ht
            simp only [Except.ok.injEq] at hl
            subst hl
            obtain ⟨⟨i, u⟩, hu, rfl⟩ := List.mem_map.1 h1
            cases spec with
            | obj d => exact Or.inr (Or.inr ⟨d, by simp, u, hu, rfl⟩)
            | _ => cases hu
          · split at hl
            · simp only [Except.ok.injEq] at hl
              subst hl
              obtain ⟨x, -, hx⟩ := List.mem_filterMap.1 h1
              split at hx
              · cases hx; exact Or.inr (Or.inl rfl)
              · split at hx
                · cases hx; exact Or.inr (Or.inl rfl)
                · cases hx
            · cases hl
      · exact Or.inr (Or.inl h1)
      · exact Or.inr (Or.inr ⟨d, by simp [h1], h2⟩)

/-- And keys are loaded for the client's issuer, or for the issuer the configuration gives an address of keys for. -/
theorem C122_keys (V : Chains.Env) (priority names : List String) (st st' : PState) (r : Except PyErr Val) (hc : Configured st.info) (h : doProviderInfo V priority names st = (r, st'))
    (q : String × KeySource) (hq : q ∈ st'.imported) :
    q ∈ st.imported ∨ q.1 = st.issuer ∨ ∃ ks d, st.info.get? "keys" = some (.obj ks) ∧ ("url", Val.obj d) ∈ ks ∧ ∃ u, (q.1, u) ∈ d ∧ q.2 = .uri u := by
  rw [doProviderInfo_configured hc] at h
  simp only at h
  split at h
  · rename_i ks hks
    generalize hl : configuredKeysLoop st.issuer ks st.imported = l at h
    obtain ⟨l, im⟩ := l
    have hst : st'.imported = im := by
      cases l with
      | error e => simp only [Prod.mk.injEq] at h; rw [← h.2]
      | ok u => simp only [Prod.mk.injEq] at h; rw [← h.2]
    rw [hst] at hq
    rcases configuredKeysLoop_issuers hl q hq with h1 | h1 | ⟨d, h1, h2⟩
    · exact Or.inl h1
    · exact Or.inr (Or.inl h1)
    · exact Or.inr (Or.inr ⟨ks, d, hks, h1, h2⟩)
  · simp only [Prod.mk.injEq] at h
    rw [← h.2] at hq
    exact Or.inl hq

/-- A source of keys that is configured under `keys`: for a `url` the address of the keys of each issuer named; for a `file` one with a JWKS, or with an RSA key, of the client's issuer. -/
inductive Source (issuer : String) (ks : Dict Val) : String × KeySource → Prop
  | url {d : Dict Val} {i : String} {u : Val} (h : ("url", Val.obj d) ∈ ks) (hd : (i, u) ∈ d) : Source issuer ks (i, .uri u)
  | jwks {d : Dict Val} {f : Val} (h : ("file", Val.obj d) ∈ ks) (hd : ("jwks", f) ∈ d) : Source issuer ks (issuer, .file f)
  | rsa {d : Dict Val} {f : Val} (h : ("file", Val.obj d) ∈ ks) (hd : ("rsa", f) ∈ d) : Source issuer ks (issuer, .pem f)

theorem Source.weaken {issuer : String} {ks : Dict Val} {p : String × Val} {q : String × KeySource} (h : Source issuer ks q) : Source issuer (p :: ks) q := by
  cases h with
  | url h hd => exact .url (List.mem_cons_of_mem _ h) hd
  | jwks h hd => exact .jwks (List.mem_cons_of_mem _ h) hd
  | rsa h hd => exact .rsa (List.mem_cons_of_mem _ h) hd

theorem configuredKeys_iff {issuer typ : String} {spec : Val} (ht : typ = "url" ∨ typ = "file") :
    ∃ l, configuredKeys issuer typ spec = .ok l ∧ ∀ q, q ∈ l ↔ Source issuer [(typ, spec)] q := by
  unfold configuredKeys
  rcases ht with rfl | rfl
  · refine ⟨_, if_pos rfl, fun q => ⟨fun h => ?_, fun h => ?_⟩⟩
    · obtain ⟨⟨i, u⟩, hu, rfl⟩ := List.mem_map.1 h
      cases spec with
      | obj d => exact .url (by simp) hu
      | _ => cases hu
    · cases h with
      | url h hd => simp only [List.mem_singleton, Prod.mk.injEq] at h; rw [← h.2]; exact List.mem_map.2 ⟨_, hd, rfl⟩
      | jwks h hd => simp at h
      | rsa h hd => simp at h
  · refine ⟨_, by simp only [String.reduceEq, if_false]; rfl, fun q => ⟨fun h => ?_, fun h => ?_⟩⟩
    · obtain ⟨⟨n, f⟩, hf, hx⟩ := List.mem_filterMap.1 h
      cases spec with
      | obj d =>
        simp only at hx
        by_cases h1 : n = "jwks"
        · rw [if_pos h1] at hx; cases hx; exact .jwks (by simp) (h1 ▸ hf)
        · rw [if_neg h1] at hx
          by_cases h2 : n = "rsa"
          · rw [if_pos h2] at hx; cases hx; exact .rsa (by simp) (h2 ▸ hf)
          · rw [if_neg h2] at hx; cases hx
      | _ => cases hf
    · cases h with
      | url h hd => simp at h
      | jwks h hd => simp only [List.mem_singleton, Prod.mk.injEq] at h; rw [← h.2]; exact List.mem_filterMap.2 ⟨_, hd, rfl⟩
      | rsa h hd => simp only [List.mem_singleton, Prod.mk.injEq] at h; rw [← h.2]; exact List.mem_filterMap.2 ⟨_, hd, rfl⟩

theorem configuredKeysLoop_iff {issuer : String} : ∀ (ks : List (String × Val)) (acc : List (String × KeySource)), (∀ p ∈ ks, p.1 = "url" ∨ p.1 = "file") →
    ∃ im, configuredKeysLoop issuer ks acc = (.ok (), im) ∧ ∀ q, q ∈ im ↔ q ∈ acc ∨ Source issuer ks q
  | [], acc, _ => ⟨acc, rfl, fun q => ⟨.inl, fun h => h.elim id (fun h => match h with | .url h _ => nomatch h | .jwks h _ => nomatch h | .rsa h _ => nomatch h)⟩⟩
  | (typ, spec) :: ks, acc, h => by
    obtain ⟨l, h1, h2⟩ := configuredKeys_iff (issuer := issuer) (spec := spec) (h (typ, spec) (by simp))
    obtain ⟨im, h3, h4⟩ := configuredKeysLoop_iff (issuer := issuer) ks (acc ++ l) (fun p hp => h p (List.mem_cons_of_mem _ hp))
    refine ⟨im, by unfold configuredKeysLoop; rw [h1]; exact h3, fun q => ?_⟩
    rw [h4, List.mem_append, h2]
    constructor
    · rintro ((h | h) | h)
      · exact .inl h
      · refine .inr ?_
        cases h with
        | url h hd => exact .url (List.mem_cons.2 (.inl (List.mem_singleton.1 h))) hd
        | jwks h hd => exact .jwks (List.mem_cons.2 (.inl (List.mem_singleton.1 h))) hd
        | rsa h hd => exact .rsa (List.mem_cons.2 (.inl (List.mem_singleton.1 h))) hd
      · exact .inr h.weaken
    · rintro (h | h)
      · exact .inl (.inl h)
      · cases h with
        | url h hd => exact (List.mem_cons.1 h).elim (fun h => .inl (.inr (.url (List.mem_singleton.2 h) hd))) (fun h => .inr (.url h hd))
        | jwks h hd => exact (List.mem_cons.1 h).elim (fun h => .inl (.inr (.jwks (List.mem_singleton.2 h) hd))) (fun h => .inr (.jwks h hd))
        | rsa h hd => exact (List.mem_cons.1 h).elim (fun h => .inl (.inr (.rsa (List.mem_singleton.2 h) hd))) (fun h => .inr (.rsa h hd))

/-- Exactly the keys that are configured are loaded, if all are in files or at addresses. -/
theorem C122_loaded (V : Chains.Env) (priority names : List String) (st : PState) (ks : Dict Val) (hc : Configured st.info) (hk : st.info.get? "keys" = some (.obj ks))
    (ht : ∀ p ∈ ks, p.1 = "url" ∨ p.1 = "file") :
    (doProviderInfo V priority names st).1 = .ok ((st.info.get? "issuer").getD (.str st.issuer)) ∧
      ∀ q, q ∈ (doProviderInfo V priority names st).2.imported ↔ q ∈ st.imported ∨ Source st.issuer ks q := by
  obtain ⟨im, h1, h2⟩ := configuredKeysLoop_iff (issuer := st.issuer) ks st.imported ht
  rw [doProviderInfo_configured hc]
  simp only [hk, h1]
  exact ⟨rfl, h2⟩

/-- Another kind of source is refused. -/
theorem C122_unknown_source (V : Chains.Env) (priority names : List String) (st : PState) (ks : Dict Val) (hc : Configured st.info) (hk : st.info.get? "keys" = some (.obj ks))
    (p : String × Val) (hp : p ∈ ks) (h1 : p.1 ≠ "url") (h2 : p.1 ≠ "file") : (doProviderInfo V priority names st).1 = .error .valueError := by
  have key : ∀ (ks : List (String × Val)) (acc : List (String × KeySource)), p ∈ ks → ∃ im, configuredKeysLoop st.issuer ks acc = (.error .valueError, im) := by
    intro ks
    induction ks with
    | nil => intro acc h; cases h
    | cons x ks ih =>
      intro acc h
      obtain ⟨typ, spec⟩ := x
      unfold configuredKeysLoop
      by_cases ht : typ = "url" ∨ typ = "file"
      · obtain ⟨l, hl, -⟩ := configuredKeys_iff (issuer := st.issuer) (spec := spec) ht
        rw [hl]
        refine ih _ ((List.mem_cons.1 h).resolve_left ?_)
        rintro rfl
        exact ht.elim h1 h2
      · have : configuredKeys st.issuer typ spec = .error .valueError := by
          unfold configuredKeys
          simp only
          rw [if_neg (fun h => ht (.inl h)), if_neg (fun h => ht (.inr h))]
        rw [this]
        exact ⟨_, rfl⟩
  obtain ⟨im, h⟩ := key ks st.imported hp
  rw [doProviderInfo_configured hc]
  simp only [hk, h]

/-- With nothing but an issuer configured, that is the provider asked for. -/
theorem C122_issuer (V : Chains.Env) (priority names : List String) (st : PState) (iss : String) (h : st.info = [("issuer", .str iss)]) :
    (doProviderInfo V priority names st).2 = (collectMetadata V priority { st with issuer := iss }).2 ∧
    ((doProviderInfo V priority names st).1.isOk = (collectMetadata V priority { st with issuer := iss }).1.isOk) := by
  obtain ⟨fed, issuer, info, chains, imported, anchor, byIssuer, endpoints⟩ := st
  simp only at h
  subst h
  unfold doProviderInfo
  simp only
  generalize collectMetadata V priority _ = r
  obtain ⟨r, s⟩ := r
  cases r <;> exact ⟨rfl, rfl⟩

namespace Ex
def pst122 : PState :=
  { pst with info := [("token_endpoint", .str "https://op/token"), ("keys", .obj [("url", .obj [("https://op", .str "https://op/keys")]), ("file", .obj [("jwks", .str "op.json")])])],
             endpoints := [("authorization_endpoint", .str "https://op/old")] }
end Ex

example : Configured Ex.pst122.info ∧ (Dict.keys Ex.pst122.info).Nodup ∧
    (doProviderInfo (Chains.Ex.env Ex.W) [] ["token_endpoint", "authorization_endpoint"] Ex.pst122).2.endpoints =
      [("authorization_endpoint", .str "https://op/old"), ("token_endpoint", .str "https://op/token")] ∧
    (∃ ks, Ex.pst122.info.get? "keys" = some (.obj ks) ∧ ∀ p ∈ ks, p.1 = "url" ∨ p.1 = "file") ∧
    (doProviderInfo (Chains.Ex.env Ex.W) [] ["token_endpoint"] Ex.pst122).2.imported = [("https://op", .uri (.str "https://op/keys")), ("https://op", .file (.str "op.json"))] :=
  ⟨⟨by decide, fun v h => by simp [Ex.pst122] at h⟩, by decide, by decide +kernel, ⟨_, rfl, by decide⟩, by decide +kernel⟩

example : Configured [("token_endpoint", .str "https://op/token"), ("keys", .obj [("ldap", .str "op")])] := ⟨by decide, fun v h => by simp at h⟩

end Fed.Client
