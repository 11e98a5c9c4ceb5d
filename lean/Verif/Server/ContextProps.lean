import Verif.Server.Context
import Verif.Server.FetchProps
/-
Properties C149-C151: sources of authority hints and trust marks, the statement that answers an explicit registration, self-signed trust marks.
-/
namespace Fed.Server.Context
open Fed Fed.Server

/-! ## C149: however authority hints and trust marks are given, they are published -/

/-- What the configuration of an entity is to say. -/
structure Published (c : Ctx) (now : Int) (md hints marks : Val) (p : Dict Val) : Prop where
  issuer : p.get? "iss" = some (.str c.entityId)
  subject : p.get? "sub" = some (.str c.entityId)
  keys : p.get? "jwks" = some c.ownKeys
  expires : p.get? "exp" = some (.int (now + 86400))
  metadata : p.get? "metadata" = (some md).filter Val.truthy
  hints : p.get? "authority_hints" = (some hints).filter Val.truthy
  marks : marks.truthy = true → p.get? "trust_marks" = some marks
  noMarks : c.marks.given = false → p.get? "trust_marks" = none

/-- C149 in full. -/
def C149_full : Prop := ∀ (files : Dict Val) (c : Ctx) (now : Int) (md hints marks : Val), getHints files c = .ok hints → getMarks files c = .ok marks →
  ∃ p, configuration files c now md = .ok p ∧ Published c now md hints marks p

theorem get?_endpointMarks (c : Ctx) (k : String) (h : k ≠ "trust_marks") : (endpointMarks c).get? k = none := by
  unfold endpointMarks
  split
  · cases c.marks <;> simp [Dict.get?, Ne.symm h]
  · rfl

theorem configuration_ok (files : Dict Val) (c : Ctx) (now : Int) (md hints : Val) (hh : getHints files c = .ok hints) :
    ∃ p, configuration files c now md = .ok p ∧ p.get? "iss" = some (.str c.entityId) ∧ p.get? "sub" = some (.str c.entityId) ∧
      p.get? "jwks" = some c.ownKeys ∧ p.get? "exp" = some (.int (now + 86400)) ∧ p.get? "metadata" = (some md).filter Val.truthy ∧
      p.get? "authority_hints" = (some hints).filter Val.truthy ∧ p.get? "trust_marks" = (endpointMarks c).get? "trust_marks" := by
  unfold configuration
  rw [hh]
  simp only
  have hk : ∀ k, Dict.get? ([("metadata", md), ("authority_hints", hints)] ++ endpointMarks c) k =
      if "metadata" = k then some md else if "authority_hints" = k then some hints else (endpointMarks c).get? k := by
    intro k; simp [Dict.get?]
  generalize ([("metadata", md), ("authority_hints", hints)] ++ endpointMarks c) = kw at hk
  have n1 := get?_endpointMarks c "iss" (by decide)
  have n2 := get?_endpointMarks c "sub" (by decide)
  have n3 := get?_endpointMarks c "key_jar" (by decide)
  have n4 := get?_endpointMarks c "lifetime" (by decide)
  have n5 := get?_endpointMarks c "jwks" (by decide)
  have n6 := get?_endpointMarks c "include_jwks" (by decide)
  have hok : ∃ p, createStatement c.ownKeys now c.entityId c.entityId none kw = .ok p := by
    unfold createStatement
    rw [if_neg (by simp [Dict.has, hk, n1, n2, n3])]
    have : param kw "lifetime" (.int 86400) = .int 86400 := by simp [param, hk, n4]
    rw [this]; exact ⟨_, rfl⟩
  obtain ⟨p, hp⟩ := hok
  obtain ⟨c1, c2, _, c4, _, c6, _, c8, c9, _, _, c12⟩ := C59_payload _ _ _ _ _ _ _ hp
  refine ⟨p, hp, c2, c1, ?_, ?_, ?_, ?_, ?_⟩
  · rw [c8 (by simp [hk, n5])]; simp [hk, n6, Val.truthy]
  · exact c9 86400 (.inr ⟨by simp [hk, n4], rfl⟩) (by decide)
  · rw [c4 "metadata" (by simp), hk]; simp
  · rw [c6 rfl, hk]; simp
  · rw [c12 "trust_marks" (by decide) (by decide), hk]; simp

/-- C149 for trust marks that are not named by a file. Missing, and false: trust marks in a file. -/
theorem C149_published_partial (files : Dict Val) (c : Ctx) (now : Int) (md hints marks : Val) (hh : getHints files c = .ok hints)
    (hm : getMarks files c = .ok marks) (hf : ∀ n, c.marks ≠ .file n) :
    ∃ p, configuration files c now md = .ok p ∧ Published c now md hints marks p := by
  obtain ⟨p, h0, h1, h2, h3, h4, h5, h6, h7⟩ := configuration_ok files c now md hints hh
  refine ⟨p, h0, h1, h2, h3, h4, h5, h6, ?_, ?_⟩
  · intro ht
    rw [h7]
    unfold getMarks at hm
    unfold endpointMarks
    cases hc : c.marks with
    | nothing => rw [hc] at hm; cases hm; cases ht
    | value v => rw [hc] at hm; cases hm; simp [Source.given, ht, Dict.get?]
    | file n => exact absurd hc (hf n)
    | call v => rw [hc] at hm; cases hm; simp [Source.given, Dict.get?]
  · intro hg
    rw [h7]; unfold endpointMarks; simp [hg]

namespace Ex
def files : Dict Val := [("hints.json", .arr [.str "https://ta"]), ("marks.json", .arr [.str "eyJ"])]
def ctx : Ctx := { entityId := "https://op", ownKeys := .obj [("keys", .arr [.str "k"])], hints := .file "hints.json", marks := .call (.arr [.str "eyJ"]) }
end Ex

/-- Authority hints in a file, trust marks from a function. -/
example : getHints Ex.files Ex.ctx = .ok (.arr [.str "https://ta"]) ∧ getMarks Ex.files Ex.ctx = .ok (.arr [.str "eyJ"]) ∧ ∀ n, Ex.ctx.marks ≠ .file n :=
  ⟨rfl, rfl, fun n h => by simp [Ex.ctx] at h⟩

/-- C149 does not hold for trust marks in a file: the name of the file is published. -/
theorem C149_file_violation : ¬ C149_full := by
  intro h
  obtain ⟨p, hp, hs⟩ := h Ex.files { Ex.ctx with marks := .file "marks.json" } 0 (.obj []) (.arr [.str "https://ta"]) (.arr [.str "eyJ"]) rfl rfl
  obtain ⟨p', hp', h2⟩ := configuration_ok Ex.files { Ex.ctx with marks := .file "marks.json" } 0 (.obj []) (.arr [.str "https://ta"]) rfl
  rw [hp] at hp'; cases hp'
  have h3 := h2.2.2.2.2.2.2
  rw [hs.marks rfl] at h3
  revert h3; decide +kernel

/-! ## C150: what the answer to an explicit registration says about the client -/

/-- C150 in full: the statement about the client says what has been registered, and nothing that is about the provider: not its keys as those of the client,
nor its trust marks. -/
def C150_full : Prop := ∀ (files : Dict Val) (c : Ctx) (now : Int) (oidc : Bool) (client anchor : String) (md : Val) (p : Dict Val),
  client ≠ c.entityId → registrationResponse files c now oidc client anchor md = .ok p →
  p.get? "iss" = some (.str c.entityId) ∧ p.get? "sub" = some (.str client) ∧ p.get? "metadata" = (some md).filter Val.truthy ∧
  p.get? "jwks" ≠ some c.ownKeys ∧ p.get? "trust_marks" = none

theorem get?_without (d : Dict Val) (k q : String) : (without d k).get? q = if k = q then none else d.get? q := by
  unfold without; exact Dict.get?_filter_ne d k q

/-- The arguments of the response. -/
def respArgs (client anchor : String) (md : Val) (more : Dict Val) : Dict Val :=
  [("trust_anchor_id", .str anchor), ("metadata", md), ("aud", .str client)] ++ more

theorem get?_respArgs (client anchor : String) (md : Val) (more : Dict Val) (q : String) : (respArgs client anchor md more).get? q =
    if "trust_anchor_id" = q then some (.str anchor) else if "metadata" = q then some md else if "aud" = q then some (.str client) else more.get? q := by
  simp [respArgs, Dict.get?]

/-- What the response says, given its authority hints. -/
theorem ctxStatement_resp (files : Dict Val) (c : Ctx) (now : Int) (client anchor : String) (md : Val) (more p : Dict Val)
    (hmore : ∀ q, q ≠ "authority_hints" → more.get? q = none) (hl : c.defaultLifetime ≠ 0)
    (h : ctxStatement files c now c.entityId client (respArgs client anchor md more) = .ok p) :
    ∃ marks, getMarks files c = .ok marks ∧
    p.get? "iss" = some (.str c.entityId) ∧ p.get? "sub" = some (.str client) ∧ p.get? "aud" = (some (Val.str client)).filter Val.truthy ∧
    p.get? "trust_anchor_id" = some (.str anchor) ∧ p.get? "metadata" = (some md).filter Val.truthy ∧ p.get? "exp" = some (.int (now + c.defaultLifetime)) ∧
    p.get? "jwks" = some c.ownKeys ∧ p.get? "trust_marks" = (some marks).filter Val.truthy := by
  have m1 := hmore "jwks" (by decide)
  have m2 := hmore "keys" (by decide)
  have m3 := hmore "trust_marks" (by decide)
  have m4 := hmore "lifetime" (by decide)
  have m5 := hmore "include_jwks" (by decide)
  have hka : ∀ q, (keyArgs (respArgs client anchor md more)).get? q = if "jwks" = q then none else (respArgs client anchor md more).get? q := by
    intro q
    unfold keyArgs
    have : (respArgs client anchor md more).get? "jwks" = none := by rw [get?_respArgs]; simp [m1]
    rw [this]
    unfold wrapKeys
    have : (without (respArgs client anchor md more) "jwks").get? "keys" = none := by rw [get?_without, get?_respArgs]; simp [m2]
    rw [this]
    exact get?_without _ _ _
  have htm : (keyArgs (respArgs client anchor md more)).get? "trust_marks" = none := by rw [hka, get?_respArgs]; simp [m3]
  unfold ctxStatement at h
  have hnull : Val.null.truthy = false := rfl
  simp only [markArgs, htm, Option.getD_none, hnull, Bool.false_eq_true, if_false] at h
  cases hg : getMarks files c with
  | error e => rw [hg] at h; cases h
  | ok marks =>
    rw [hg] at h
    simp only at h
    have hlt : lifetimeArg c (respArgs client anchor md more) = .int c.defaultLifetime := by
      simp [lifetimeArg, get?_respArgs, m4, Val.truthy]
    rw [hlt] at h
    generalize hr : (if (((respArgs client anchor md more).get? "authority_hints").getD .null).truthy = true
      then (none, ((respArgs client anchor md more).get? "authority_hints").getD .null) else rawHints c.hints) = fh at h
    obtain ⟨fn, hints⟩ := fh
    simp only at h
    generalize hkw : (if marks.truthy = true then (keyArgs (respArgs client anchor md more)).set "trust_marks" marks
      else keyArgs (respArgs client anchor md more)) = kw at h
    have hk : ∀ q, q ≠ "authority_hints" → q ≠ "lifetime" → Dict.get? ((kw.set "authority_hints" hints).set "lifetime" (.int c.defaultLifetime)) q =
        if "trust_marks" = q then (some marks).filter Val.truthy else (keyArgs (respArgs client anchor md more)).get? q := by
      intro q h1 h2
      rw [Dict.get?_set, if_neg (Ne.symm h2), Dict.get?_set, if_neg (Ne.symm h1), ← hkw]
      split
      · rename_i ht
        rw [Dict.get?_set]; simp [Option.filter, ht]
      · rename_i ht
        by_cases hq : "trust_marks" = q
        · subst hq; rw [htm]; simp [Option.filter, ht]
        · rw [if_neg hq]
    have hlk : Dict.get? ((kw.set "authority_hints" hints).set "lifetime" (.int c.defaultLifetime)) "lifetime" = some (.int c.defaultLifetime) :=
      Dict.get?_set_self _ _ _
    obtain ⟨c1, c2, _, c4, _, _, _, c8, c9, _, _, c12⟩ := C59_payload _ _ _ _ _ _ _ h
    refine ⟨marks, rfl, c2, c1, ?_, ?_, ?_, c9 c.defaultLifetime (.inl hlk) hl, ?_, ?_⟩
    · rw [c4 "aud" (by simp), hk "aud" (by decide) (by decide), hka, get?_respArgs]; simp
    · rw [c12 "trust_anchor_id" (by decide) (by decide), hk "trust_anchor_id" (by decide) (by decide), hka, get?_respArgs]; simp
    · rw [c4 "metadata" (by simp), hk "metadata" (by decide) (by decide), hka, get?_respArgs]; simp
    · rw [c8 (by rw [hk "jwks" (by decide) (by decide), hka]; simp), hk "include_jwks" (by decide) (by decide), hka, get?_respArgs]
      simp [m5, Val.truthy]
    · rw [c12 "trust_marks" (by decide) (by decide), hk "trust_marks" (by decide) (by decide)]; simp

/-- C150, what holds: the statement names provider and client, is meant for the client, names the trust anchor, and has the metadata; the trust marks of the provider are
in it if there are any, its keys always. Missing, and false: that they are not. -/
theorem C150_response_partial (files : Dict Val) (c : Ctx) (now : Int) (oidc : Bool) (client anchor : String) (md : Val) (p : Dict Val)
    (hl : c.defaultLifetime ≠ 0) (h : registrationResponse files c now oidc client anchor md = .ok p) :
    p.get? "iss" = some (.str c.entityId) ∧ p.get? "sub" = some (.str client) ∧ p.get? "aud" = (some (Val.str client)).filter Val.truthy ∧
    p.get? "trust_anchor_id" = some (.str anchor) ∧ p.get? "metadata" = (some md).filter Val.truthy ∧ p.get? "exp" = some (.int (now + c.defaultLifetime)) ∧
    p.get? "jwks" = some c.ownKeys ∧
    ∃ marks, getMarks files c = .ok marks ∧ p.get? "trust_marks" = (some marks).filter Val.truthy := by
  have : ∃ more : Dict Val, (∀ q, q ≠ "authority_hints" → more.get? q = none) ∧
      ctxStatement files c now c.entityId client (respArgs client anchor md more) = .ok p := by
    unfold registrationResponse at h
    cases oidc with
    | true =>
      simp only [if_true] at h
      cases hg : getHints files c with
      | error e => rw [hg] at h; cases h
      | ok hints =>
        rw [hg] at h
        exact ⟨[("authority_hints", hints)], fun q hq => by simp [Dict.get?, Ne.symm hq], h⟩
    | false =>
      simp only [Bool.false_eq_true, if_false] at h
      exact ⟨[], fun q _ => rfl, by simpa [respArgs] using h⟩
  obtain ⟨more, hm, h⟩ := this
  obtain ⟨marks, r0, r1, r2, r3, r4, r5, r6, r7, r8⟩ := ctxStatement_resp files c now client anchor md more p hm hl h
  exact ⟨r1, r2, r3, r4, r5, r6, r7, marks, r0, r8⟩

/-- There are such responses. -/
theorem Ex.response : ∃ p, registrationResponse Ex.files Ex.ctx 0 true "https://rp" "https://ta" (.obj [("openid_relying_party", .obj [])]) = .ok p := ⟨_, rfl⟩

example : Ex.ctx.defaultLifetime ≠ 0 := by decide

/-- C150 does not hold: the keys stated as those of the client are the provider's, -/
theorem C150_keys_violation : ¬ C150_full := by
  intro h
  obtain ⟨p, hp⟩ := Ex.response
  exact (h _ _ _ _ _ _ _ p (by decide) hp).2.2.2.1 (C150_response_partial _ _ _ _ _ _ _ p (by decide) hp).2.2.2.2.2.2.1

/-- and the trust marks of the provider are stated about the client. -/
theorem C150_marks_violation : ¬ C150_full := by
  intro h
  obtain ⟨p, hp⟩ := Ex.response
  have h1 := (h _ _ _ _ _ _ _ p (by decide) hp).2.2.2.2
  obtain ⟨marks, g, h2⟩ := (C150_response_partial _ _ _ _ _ _ _ p (by decide) hp).2.2.2.2.2.2.2
  rw [h1] at h2
  cases g
  revert h2; decide +kernel

/-! ## C151: self-signed trust marks -/

/-- A trust mark of an entity about itself. -/
structure OwnMark (s : Signer) (now : Int) (id : String) (mark : Dict Val) : Prop where
  issuer : mark.get? "iss" = some (.str s.ctx.entityId)
  subject : mark.get? "sub" = some (.str s.ctx.entityId)
  id : mark.get? "id" = some (.str id)
  issued : mark.get? "iat" = some (.int now)
  expires : mark.get? "exp" = some (.int (now + markLifetime))

/-- C151 in full: a self-signed trust mark that is in the specifications can be had; it is by and about the entity; the configuration of the entity has it, whatever marks are made
afterwards, until it expires and not longer. -/
def C151_full : Prop := ∀ (s : Signer) (now : Int) (id : String) (kw spec : Dict Val), s.spec.get? id = some spec → kw.get? "id" = none →
  ∃ mark, (selfSign s now id kw).1 = .ok mark ∧ OwnMark s now id mark ∧
    ∀ (rs : List (Int × String × Dict Val)) (files : Dict Val) (t : Int) (md : Val) (p : Dict Val), configuration files (selfSignAll (selfSign s now id kw).2 rs).ctx t md = .ok p →
      ((∃ ms, p.get? "trust_marks" = some (.arr ms) ∧ .obj mark ∈ ms) ↔ t ≤ now + markLifetime)

theorem selfSign_keeps (s : Signer) (now : Int) (id : String) (kw : Dict Val) (ms : List Val) (h : s.ctx.marks = .value (.arr ms)) :
    ∃ new, (selfSign s now id kw).2.ctx = { s.ctx with marks := .value (.arr (ms ++ new)) } ∧
      ∀ mark, (selfSign s now id kw).1 = .ok mark → new = [.obj mark] := by
  have same : ∃ new : List Val, s.ctx = { s.ctx with marks := .value (.arr (ms ++ new)) } ∧ new = [] := ⟨[], by rw [List.append_nil, ← h], rfl⟩
  obtain ⟨n0, hn0, hn0'⟩ := same
  subst hn0'
  unfold selfSign
  split
  · exact ⟨[], hn0, by intro m hm; cases hm⟩
  · cases hs : s.spec.get? id with
    | none => exact ⟨[], hn0, by intro m hm; cases hm⟩
    | some spec =>
      simp only [pack, ne_eq, not_true, if_false, h]
      exact ⟨_, rfl, by intro m hm; cases hm; rfl⟩

theorem selfSignAll_keeps : ∀ (rs : List (Int × String × Dict Val)) (s : Signer) (ms : List Val), s.ctx.marks = .value (.arr ms) →
    ∃ new, (selfSignAll s rs).ctx = { s.ctx with marks := .value (.arr (ms ++ new)) }
  | [], s, ms, h => ⟨[], by simp [selfSignAll, ← h]⟩
  | (now, id, kw) :: rs, s, ms, h => by
    obtain ⟨n1, h1, _⟩ := selfSign_keeps s now id kw ms h
    obtain ⟨n2, h2⟩ := selfSignAll_keeps rs (selfSign s now id kw).2 (ms ++ n1) (by rw [h1])
    exact ⟨n1 ++ n2, by rw [selfSignAll, h2, h1, List.append_assoc]⟩

/-- C151 for entities whose trust marks are a list, and arguments that name neither subject nor expiry: there is a mark, it is by and about the entity with the claims specified or given, and
every later configuration has it. Missing, and false: that it is left out once expired, other ways to give trust marks, other arguments. -/
theorem C151_self_signed_partial (s : Signer) (now : Int) (id : String) (kw spec : Dict Val) (ms : List Val) (hs : s.spec.get? id = some spec) (hid : kw.get? "id" = none)
    (hsub : kw.get? "sub" = none) (hexp : kw.get? "exp" = none) (hm : s.ctx.marks = .value (.arr ms)) :
    ∃ mark, (selfSign s now id kw).1 = .ok mark ∧ OwnMark s now id mark ∧
      (∀ k, k ∉ ["iss", "sub", "id", "iat", "exp"] → mark.get? k = (kw.get? k).or (spec.get? k)) ∧
      ∀ (rs : List (Int × String × Dict Val)) (files : Dict Val) (t : Int) (md : Val) (p : Dict Val), configuration files (selfSignAll (selfSign s now id kw).2 rs).ctx t md = .ok p →
        ∃ ms, p.get? "trust_marks" = some (.arr ms) ∧ .obj mark ∈ ms := by
  have hhas : kw.has "id" = false := by simp [Dict.has, hid]
  have hok : ∃ mark, (selfSign s now id kw).1 = .ok mark ∧
      mark = ((Dict.update (Dict.update spec [("iat", .int now), ("id", .str id), ("sub", .str s.ctx.entityId), ("exp", .int (now + markLifetime))]) kw).set "iss" (.str s.ctx.entityId)).set "iat" (.int now) := by
    unfold selfSign
    rw [hhas]
    simp only [Bool.false_eq_true, if_false, hs, pack, ne_eq, not_true, hm]
    exact ⟨_, rfl, rfl⟩
  obtain ⟨mark, hmk, hme⟩ := hok
  have hget : ∀ q, mark.get? q = if "iat" = q then some (.int now) else if "iss" = q then some (.str s.ctx.entityId) else (kw.get? q).or
      (if "exp" = q then some (.int (now + markLifetime)) else if "sub" = q then some (.str s.ctx.entityId) else if "id" = q then some (.str id) else spec.get? q) := by
    intro q
    rw [hme, Dict.get?_set, Dict.get?_set, Dict.get?_update, Dict.get?_update]
    by_cases h1 : "iat" = q
    · simp [h1]
    · rw [if_neg h1, if_neg h1]
      congr 2
      simp only [Dict.get?]
      by_cases h2 : "exp" = q
      · subst h2; simp
      · by_cases h3 : "sub" = q
        · subst h3; simp
        · by_cases h4 : "id" = q
          · subst h4; simp
          · simp [h1, h2, h3, h4]
  refine ⟨mark, hmk, ⟨?_, ?_, ?_, ?_, ?_⟩, ?_, ?_⟩
  · rw [hget]; simp
  · rw [hget]; simp [hsub]
  · rw [hget]; simp [hid]
  · rw [hget]; simp
  · rw [hget]; simp [hexp]
  · intro k hk
    simp only [List.mem_cons, List.not_mem_nil, not_or, or_false] at hk
    obtain ⟨k1, k2, k3, k4, k5⟩ := hk
    rw [hget, if_neg (Ne.symm k4), if_neg (Ne.symm k1), if_neg (Ne.symm k5), if_neg (Ne.symm k2), if_neg (Ne.symm k3)]
  · intro rs files t md p hp
    obtain ⟨n1, h1, h1'⟩ := selfSign_keeps s now id kw ms hm
    obtain ⟨n2, h2⟩ := selfSignAll_keeps rs (selfSign s now id kw).2 (ms ++ n1) (by rw [h1])
    have hc : (selfSignAll (selfSign s now id kw).2 rs).ctx.marks = .value (.arr (ms ++ n1 ++ n2)) := by rw [h2]
    have hin : Val.obj mark ∈ ms ++ n1 ++ n2 := by rw [h1' mark hmk]; simp
    have hh : ∃ hints, getHints files (selfSignAll (selfSign s now id kw).2 rs).ctx = .ok hints := by
      unfold configuration at hp
      cases hg : getHints files (selfSignAll (selfSign s now id kw).2 rs).ctx with
      | ok v => exact ⟨v, rfl⟩
      | error e => rw [hg] at hp; cases hp
    obtain ⟨hints, hh⟩ := hh
    obtain ⟨p', hp', hpub⟩ := C149_published_partial files _ t md hints (.arr (ms ++ n1 ++ n2)) hh (by unfold getMarks; rw [hc]) (by intro n; rw [hc]; intro h; cases h)
    rw [hp] at hp'; cases hp'
    refine ⟨_, hpub.marks ?_, hin⟩
    cases hl : ms ++ n1 ++ n2 with
    | nil => rw [hl] at hin; cases hin
    | cons a b => simp [Val.truthy]

namespace Ex
def signer : Signer := { ctx := { entityId := "https://rp", ownKeys := .obj [] }, spec := [("tm", [("logo_uri", .str "https://rp/logo")])] }
end Ex

example : Ex.signer.spec.get? "tm" = some [("logo_uri", .str "https://rp/logo")] ∧ Ex.signer.ctx.marks = .value (.arr []) ∧ Dict.get? [("ref", Val.str "x")] "sub" = none := by decide +kernel

/-- C151 does not hold: an expired mark stays in the configuration; -/
theorem C151_expired_violation : ¬ C151_full := by
  intro h
  obtain ⟨mark, h1, -, h3⟩ := h Ex.signer 0 "tm" [] _ rfl rfl
  obtain ⟨mark', g1, -, -, g4⟩ := C151_self_signed_partial Ex.signer 0 "tm" [] _ [] rfl rfl rfl rfl rfl
  rw [h1] at g1; cases g1
  have hp : ∃ p, configuration [] (selfSignAll (selfSign Ex.signer 0 "tm" []).2 []).ctx (markLifetime + 1) (.obj []) = .ok p := ⟨_, rfl⟩
  obtain ⟨p, hp⟩ := hp
  have := (h3 [] [] (markLifetime + 1) (.obj []) p hp).1 (g4 [] [] _ _ p hp)
  revert this; decide

/-- arguments can name another subject; -/
theorem C151_subject_violation : ¬ C151_full := by
  intro h
  obtain ⟨mark, h1, h2, -⟩ := h Ex.signer 0 "tm" [("sub", .str "https://other")] _ rfl rfl
  have hm : (selfSign Ex.signer 0 "tm" [("sub", .str "https://other")]).1.toOption.bind (fun m => m.get? "sub") = some (.str "https://other") := by decide +kernel
  rw [h1] at hm
  simp only [Except.toOption, Option.bind_some, h2.subject] at hm
  revert hm; decide +kernel

/-- and an entity that gets its trust marks from a function can not make any. -/
theorem C151_source_violation : ¬ C151_full := by
  intro h
  obtain ⟨mark, h1, -, -⟩ := h { Ex.signer with ctx := { Ex.signer.ctx with marks := .call (.arr []) } } 0 "tm" [] _ rfl rfl
  have hm : (selfSign { Ex.signer with ctx := { Ex.signer.ctx with marks := .call (.arr []) } } 0 "tm" []).1 = .error .attributeError := by decide +kernel
  rw [hm] at h1; cases h1

end Fed.Server.Context
