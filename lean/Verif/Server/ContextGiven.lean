import Verif.Server.ContextProps
/-
Property C153: what a statement made by a federation entity says, given the arguments and the entity.
-/
namespace Fed.Server.Context
open Fed Fed.Server

/-! ## C153: given arguments are stated, the rest is the entity's own -/

/-- The keys a statement is to name, by the arguments. -/
def keysAsked (ownKeys : Val) (kwargs : Dict Val) : Val :=
  match (kwargs.get? "jwks").filter Val.truthy, kwargs.get? "keys" with
  | some v, _ => v
  | none, some ks => .obj [("keys", ks)]
  | none, none => ownKeys

/-- What a statement made in the context of an entity is to say. -/
structure Says (c : Ctx) (now : Int) (iss sub : String) (kwargs : Dict Val) (hints marks : Val) (p : Dict Val) : Prop where
  issuer : p.get? "iss" = some (.str iss)
  subject : p.get? "sub" = some (.str sub)
  issued : p.get? "iat" = some (.int now)
  named : ∀ k ∈ ["metadata", "metadata_policy", "aud", "constraints"], p.get? k = (kwargs.get? k).filter Val.truthy
  keys : kwargs.get? "include_jwks" = none → p.get? "jwks" = some (keysAsked c.ownKeys kwargs)
  lifetime : ∀ l, kwargs.get? "lifetime" = some (.int l) → l ≠ 0 → p.get? "exp" = some (.int (now + l))
  lifetimeDefault : kwargs.get? "lifetime" = none → c.defaultLifetime ≠ 0 → p.get? "exp" = some (.int (now + c.defaultLifetime))
  hintsGiven : ∀ v, kwargs.get? "authority_hints" = some v → v.truthy = true → p.get? "authority_hints" = some v
  hintsOwn : kwargs.get? "authority_hints" = none → p.get? "authority_hints" = (some hints).filter Val.truthy
  marksGiven : ∀ v, kwargs.get? "trust_marks" = some v → v.truthy = true → p.get? "trust_marks" = some v
  marksOwn : kwargs.get? "trust_marks" = none → p.get? "trust_marks" = (some marks).filter Val.truthy
  others : ∀ k, k ∉ namedParams → k ∉ ["sub", "iss", "iat", "exp", "jwks", "keys", "trust_marks"] → p.get? k = kwargs.get? k

/-- C153 in full. -/
def C153_full : Prop := ∀ (files : Dict Val) (c : Ctx) (now : Int) (iss sub : String) (kwargs p : Dict Val) (hints marks : Val),
  getHints files c = .ok hints → getMarks files c = .ok marks → ctxStatement files c now iss sub kwargs = .ok p → Says c now iss sub kwargs hints marks p

theorem get?_keyArgs_other (kwargs : Dict Val) (q : String) (h1 : q ≠ "jwks") (h2 : q ≠ "keys") : (keyArgs kwargs).get? q = kwargs.get? q := by
  have hw : (wrapKeys (without kwargs "jwks")).get? q = kwargs.get? q := by
    unfold wrapKeys
    split
    · rw [Dict.get?_set, if_neg (Ne.symm h1), get?_without, if_neg (Ne.symm h2), get?_without, if_neg (Ne.symm h1)]
    · rw [get?_without, if_neg (Ne.symm h1)]
  unfold keyArgs
  split
  · split
    · rw [Dict.get?_set, if_neg (Ne.symm h1), get?_without, if_neg (Ne.symm h1)]
    · exact hw
  · exact hw

theorem get?_keyArgs_jwks (ownKeys : Val) (kwargs : Dict Val) : ((keyArgs kwargs).get? "jwks").getD ownKeys = keysAsked ownKeys kwargs := by
  have hw : (wrapKeys (without kwargs "jwks")).get? "jwks" = (kwargs.get? "keys").map fun ks => .obj [("keys", ks)] := by
    unfold wrapKeys
    have hk : (without kwargs "jwks").get? "keys" = kwargs.get? "keys" := by rw [get?_without]; simp
    rw [hk]
    cases kwargs.get? "keys" with
    | none => simp [get?_without]
    | some ks => simp
  unfold keyArgs keysAsked
  cases hj : kwargs.get? "jwks" with
  | none => simp only [hw, Option.filter_none]; cases kwargs.get? "keys" <;> rfl
  | some v =>
    simp only
    by_cases ht : v.truthy = true
    · rw [if_pos ht]; simp [Option.filter, ht]
    · rw [if_neg ht, hw]; simp only [Option.filter, ht]; cases kwargs.get? "keys" <;> rfl

/-- What is said apart from the authority hints of the entity itself. -/
theorem ctxStatement_says {files : Dict Val} {c : Ctx} {now : Int} {iss sub : String} {kwargs p : Dict Val} (h : ctxStatement files c now iss sub kwargs = .ok p)
    (hints marks : Val) (hm : ((kwargs.get? "trust_marks").getD .null).truthy = false → getMarks files c = .ok marks)
    (hh : kwargs.get? "authority_hints" = none → (rawHints c.hints).1.or ((some (rawHints c.hints).2).filter Val.truthy) = (some hints).filter Val.truthy) :
    Says c now iss sub kwargs hints marks p := by
  unfold ctxStatement at h
  simp only at h
  cases hma : markArgs files c (keyArgs kwargs) with
  | error e => rw [hma] at h; cases h
  | ok kw =>
    rw [hma] at h
    simp only at h
    generalize hfh : (if ((kwargs.get? "authority_hints").getD .null).truthy = true then (none, (kwargs.get? "authority_hints").getD .null) else rawHints c.hints) = fh at h
    -- the trust marks handed on
    have htk : (keyArgs kwargs).get? "trust_marks" = kwargs.get? "trust_marks" := get?_keyArgs_other _ _ (by decide) (by decide)
    have htm : ∀ q, q ≠ "trust_marks" → kw.get? q = (keyArgs kwargs).get? q := by
      intro q hq
      unfold markArgs at hma
      split at hma
      · cases hma; rfl
      · rename_i hno
        rw [hm (by rw [← htk]; simpa using hno)] at hma
        simp only [Except.ok.injEq] at hma
        subst hma
        split
        · rw [Dict.get?_set, if_neg (Ne.symm hq)]
        · rfl
    have ht1 : ∀ v, kwargs.get? "trust_marks" = some v → v.truthy = true → kw.get? "trust_marks" = some v := by
      intro v hv ht
      unfold markArgs at hma
      rw [htk, hv, Option.getD_some, if_pos ht] at hma
      cases hma
      rw [htk, hv]
    have ht2 : kwargs.get? "trust_marks" = none → kw.get? "trust_marks" = (some marks).filter Val.truthy := by
      intro hn
      unfold markArgs at hma
      have hnull : Val.null.truthy = false := rfl
      rw [htk, hn, Option.getD_none, hnull, if_neg (by decide), hm (by rw [hn]; rfl)] at hma
      simp only [Except.ok.injEq] at hma
      subst hma
      split
      · next ht => rw [Dict.get?_set_self]; simp [Option.filter, ht]
      · next ht => rw [htk, hn]; simp [Option.filter, ht]
    generalize hK : (kw.set "authority_hints" fh.2).set "lifetime" (lifetimeArg c kwargs) = K at h
    have hk : ∀ q, q ≠ "authority_hints" → q ≠ "lifetime" → K.get? q = kw.get? q := by
      intro q h1 h2
      rw [← hK, Dict.get?_set, if_neg (Ne.symm h2), Dict.get?_set, if_neg (Ne.symm h1)]
    have hkl : K.get? "lifetime" = some (lifetimeArg c kwargs) := by rw [← hK]; exact Dict.get?_set_self _ _ _
    have hkh : K.get? "authority_hints" = some fh.2 := by
      rw [← hK, Dict.get?_set, if_neg (by decide)]; exact Dict.get?_set_self _ _ _
    have hall : ∀ q, q ≠ "authority_hints" → q ≠ "lifetime" → q ≠ "trust_marks" → q ≠ "jwks" → q ≠ "keys" → K.get? q = kwargs.get? q := by
      intro q a b d e f
      rw [hk q a b, htm q d, get?_keyArgs_other _ _ e f]
    obtain ⟨c1, c2, c3, c4, c5, c6, c7, c8, c9, _, _, c12⟩ := C59_payload _ _ _ _ _ _ _ h
    refine ⟨c2, c1, c3, ?_, ?_, ?_, ?_, ?_, ?_, ?_, ?_, ?_⟩
    · intro k hkm
      rw [c4 k hkm]
      rw [hall k] <;> (intro e; subst e; simp at hkm)
    · intro hi
      have hki : K.get? "include_jwks" = none := by rw [hall _ (by decide) (by decide) (by decide) (by decide) (by decide)]; exact hi
      have hkj : K.get? "jwks" = (keyArgs kwargs).get? "jwks" := by rw [hk _ (by decide) (by decide), htm _ (by decide)]
      rw [← get?_keyArgs_jwks, ← hkj]
      cases hj : K.get? "jwks" with
      | some v => exact c7 v hj
      | none => rw [c8 hj, hki]; simp [Val.truthy]
    · intro l hl hl0
      refine c9 l (.inl ?_) hl0
      rw [hkl, lifetimeArg, hl]
      simp [Val.truthy, hl0]
    · intro hn hd
      refine c9 _ (.inl ?_) hd
      rw [hkl, lifetimeArg, hn]
      simp [Val.truthy]
    · intro v hv ht
      rw [hv, Option.getD_some, if_pos ht] at hfh
      subst hfh
      rw [c6 rfl, hkh]; simp [Option.filter, ht]
    · intro hn
      have hnull : Val.null.truthy = false := rfl
      rw [hn, Option.getD_none, hnull, if_neg (by decide)] at hfh
      rw [← hh hn, hfh]
      cases hf : fh.1 with
      | some v => rw [c5 v hf]; rfl
      | none => rw [c6 hf, hkh]; simp
    · intro v hv ht
      rw [c12 _ (by decide) (by decide), hk _ (by decide) (by decide)]; exact ht1 v hv ht
    · intro hn
      rw [c12 _ (by decide) (by decide), hk _ (by decide) (by decide)]; exact ht2 hn
    · intro k h1 h2
      simp only [List.mem_cons, not_or] at h2
      rw [c12 k h1 (by simp only [List.mem_cons, not_or]; exact ⟨h2.1, h2.2.1, h2.2.2.1, h2.2.2.2.1, h2.2.2.2.2.1, by simp⟩)]
      exact hall k (by rintro rfl; simp [namedParams] at h1) (by rintro rfl; simp [namedParams] at h1) h2.2.2.2.2.2.2.1 h2.2.2.2.2.1 h2.2.2.2.2.2.1

/-- C153 for entities whose authority hints are given as a list; or whatever they are given as, if authority hints are among the arguments. Missing: hints in files (false),
hints from a function that returns nothing (stated as an empty list). -/
theorem C153_given_partial (files : Dict Val) (c : Ctx) (now : Int) (iss sub : String) (kwargs p : Dict Val) (hints marks : Val)
    (hh : getHints files c = .ok hints) (hm : getMarks files c = .ok marks) (h : ctxStatement files c now iss sub kwargs = .ok p)
    (hs : kwargs.get? "authority_hints" ≠ none ∨ (∃ v, c.hints = .value v) ∨ (∃ v, c.hints = .call v ∧ v.truthy = true)) :
    Says c now iss sub kwargs hints marks p := by
  refine ctxStatement_says h hints marks (fun _ => hm) fun hn => ?_
  rcases hs with hs | ⟨v, hs⟩ | ⟨v, hs, ht⟩
  · exact absurd hn hs
  · rw [getHints, hs] at hh; cases hh
    rw [hs]; rfl
  · rw [getHints, hs] at hh; cases hh
    rw [hs]; simp [rawHints, Option.filter, ht]

namespace Ex
def plain : Ctx := { ctx with hints := .value (.arr [.str "https://ta"]) }
def args : Dict Val := [("metadata", .obj [("federation_entity", .obj [])]), ("lifetime", .int 60), ("jwks", .obj [("keys", .arr [.str "s"])]), ("crit", .arr [])]
end Ex

/-- A statement with a lifetime and keys of its own. -/
example : ∃ p, ctxStatement Ex.files Ex.plain 10 "https://op" "https://x" Ex.args = .ok p ∧ p.get? "exp" = some (.int 70) ∧
    p.get? "jwks" = some (.obj [("keys", .arr [.str "s"])]) ∧ p.get? "authority_hints" = some (.arr [.str "https://ta"]) := by
  refine ⟨_, rfl, ?_⟩
  decide +kernel

/-- C153 does not hold: of authority hints in a file, the name of the file is stated. -/
theorem C153_file_violation : ¬ C153_full := by
  intro h
  have hs : ctxStatement Ex.files Ex.ctx 10 "https://op" "https://x" [] = .ok (match ctxStatement Ex.files Ex.ctx 10 "https://op" "https://x" [] with | .ok p => p | .error _ => []) := by
    decide +kernel
  have := (h Ex.files Ex.ctx 10 "https://op" "https://x" [] _ (.arr [.str "https://ta"]) (.arr [.str "eyJ"]) rfl rfl hs).hintsOwn rfl
  revert this; decide +kernel

end Fed.Server.Context
