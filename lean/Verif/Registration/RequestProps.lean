import Verif.Registration.Request
/-
Properties C61 and C62: what a registration request may ask for.
-/
namespace Fed.Registration
open Fed

/-! ## C61 -/

/-- The scheme (and host) suits the application type: a native client uses a custom scheme or http on the local host; any other http or https, and
https if it is a web client whose response types are not exactly `code`. -/
def SchemeSuits (request : Dict Val) (p : Url) : Prop :=
  if clientType request = .str "native" then
    (p.scheme ≠ "http" ∧ p.scheme ≠ "https") ∨ (p.scheme = "http" ∧ (p.hostname = some "localhost" ∨ p.hostname = some "127.0.0.1"))
  else
    p.scheme = "https" ∨ (p.scheme = "http" ∧ (clientType request = .str "web" → request.get? "response_types" = some (.arr [.str "code"])))

/-- C61 in full: every redirect URI of an accepted request suits the application type and has no fragment. -/
def C61_full : Prop :=
  ∀ (U : Urls) (request : Dict Val) (uris : List Val) (out : List (String × Val)), request.get? "redirect_uris" = some (.arr uris) →
    verifyRedirectUris U request = .ok out →
    ∀ u ∈ uris, ∃ s p, u = .str s ∧ U.parse s = .ok p ∧ SchemeSuits request p ∧ p.fragment = ""

namespace Ex
/-- URL handling that knows four URLs. -/
def U : Urls where
  parse
    | "https://rp/cb" => .ok ⟨"https", some "rp", "", ""⟩
    | "http://rp/cb" => .ok ⟨"http", some "rp", "", ""⟩
    | "http://localhost/cb#f" => .ok ⟨"http", some "localhost", "", "f"⟩
    | "app:cb#f" => .ok ⟨"app", none, "", "f"⟩
    | _ => .error .valueError
  split u := .ok (u, .null)
def request (t : String) (uris : List String) : Dict Val := [("application_type", .str t), ("redirect_uris", .arr (uris.map .str))]
end Ex

/-- C61 does not hold: the redirect URIs of a native client may have fragments. -/
theorem C61_fragment_violation : ¬ C61_full := by
  intro h
  obtain ⟨s, p, h1, h2, -, h3⟩ := h Ex.U (Ex.request "native" ["app:cb#f"]) [.str "app:cb#f"] [("app:cb#f", .obj [])] rfl (by decide)
    (.str "app:cb#f") (by simp)
  cases h1
  cases h2
  exact absurd h3 (by decide)

/-- Nor for the other kind of redirect URI of a native client. -/
theorem C61_localhost_fragment_violation : ¬ C61_full := by
  intro h
  obtain ⟨s, p, h1, h2, -, h3⟩ := h Ex.U (Ex.request "native" ["http://localhost/cb#f"]) [.str "http://localhost/cb#f"]
    [("http://localhost/cb#f", .obj [])] rfl (by decide) (.str "http://localhost/cb#f") (by simp)
  cases h1
  cases h2
  exact absurd h3 (by decide)

/-- What is recorded for an accepted URI: of a custom scheme the URI itself, otherwise its base and query. -/
def Recorded (U : Urls) (request : Dict Val) (s : String) (p : Url) (r : String × Val) : Prop :=
  if clientType request = .str "native" ∧ p.scheme ≠ "http" ∧ p.scheme ≠ "https" then r = (s, .obj [])
  else ∃ base query, U.split s = .ok (base, query) ∧ r = (base, if query.truthy then query else .obj [])

theorem mustHttps_iff (request : Dict Val) : mustHttps request = true ↔
    clientType request = .str "web" ∧ request.get? "response_types" ≠ some (.arr [.str "code"]) := by
  simp [mustHttps]

/-- One URI: accepted exactly if it suits, has no fragment (unless the client is native) and can be parsed and split. -/
theorem verifyRedirectUri_iff (U : Urls) (request : Dict Val) (u : Val) (r : String × Val) :
    verifyRedirectUri U (decide (clientType request = .str "native")) (mustHttps request) u = .ok r ↔
      ∃ s p, u = .str s ∧ U.parse s = .ok p ∧ SchemeSuits request p ∧ (clientType request ≠ .str "native" → p.fragment = "") ∧
        Recorded U request s p r := by
  have plain : ∀ s, ((U.split s >>= fun x => (if x.2.truthy then .ok (x.1, x.2) else .ok (x.1, .obj []) : Except PyErr (String × Val))) = .ok r) ↔
      ∃ base query, U.split s = .ok (base, query) ∧ r = (base, if query.truthy then query else .obj []) := by
    intro s
    cases hs : U.split s with
    | error e => simp
    | ok x =>
      obtain ⟨b, q⟩ := x
      simp only [ok_bind, Except.ok.injEq, Prod.mk.injEq]
      constructor
      · intro h
        refine ⟨b, q, ⟨rfl, rfl⟩, ?_⟩
        split at h <;> rename_i hq <;> simp only [Except.ok.injEq] at h <;> rw [← h] <;> simp [hq]
      · rintro ⟨b', q', ⟨rfl, rfl⟩, rfl⟩
        split <;> rfl
  cases u with
  | str s =>
    simp only [verifyRedirectUri]
    cases hp : U.parse s with
    | error e =>
      simp only [error_bind]
      constructor
      · intro h; cases h
      · rintro ⟨s', p, h1, h2, -⟩
        cases h1
        rw [hp] at h2; cases h2
    | ok p =>
      simp only [ok_bind]
      have e1 : (∃ s' p', Val.str s = .str s' ∧ U.parse s' = .ok p' ∧ SchemeSuits request p' ∧
          (clientType request ≠ .str "native" → p'.fragment = "") ∧ Recorded U request s' p' r) ↔
          (SchemeSuits request p ∧ (clientType request ≠ .str "native" → p.fragment = "") ∧ Recorded U request s p r) := by
        constructor
        · rintro ⟨s', p', h1, h2, h3⟩
          cases h1
          rw [hp] at h2; cases h2
          exact h3
        · intro h
          exact ⟨s, p, rfl, hp, h⟩
      rw [e1]
      have hm := mustHttps_iff request
      by_cases hn : clientType request = .str "native"
      · simp only [hn, decide_true, if_true, SchemeSuits, Recorded, true_and, ne_eq, not_true_eq_false, false_implies]
        by_cases h1 : p.scheme = "http"
        · simp only [h1, List.mem_cons, true_or, not_true_eq_false, if_false, true_and, List.not_mem_nil, or_false, false_and, false_or]
          by_cases h2 : p.hostname = some "localhost" ∨ p.hostname = some "127.0.0.1"
          · simp only [h2, if_true, true_and]
            exact plain s
          · simp [h2]
        · by_cases h2 : p.scheme = "https"
          · simp [h2]
          · simp only [h1, h2, List.mem_cons, List.not_mem_nil, or_false, or_self, not_false_eq_true, if_true, and_self, true_or, true_and,
              Except.ok.injEq]
            exact eq_comm
      · simp only [hn, decide_false, Bool.false_eq_true, if_false, SchemeSuits, Recorded, false_and, ne_eq, not_false_eq_true, true_implies]
        by_cases h1 : p.scheme = "https"
        · simp only [h1, not_true_eq_false, and_false, if_false, List.mem_cons, List.not_mem_nil, or_false, or_true, true_or, true_and]
          by_cases h2 : p.fragment = ""
          · simp only [h2, not_true_eq_false, if_false, true_and]
            exact plain s
          · simp [h2]
        · simp only [h1, not_false_eq_true, and_true, false_or]
          by_cases h3 : mustHttps request = true
          · rw [if_pos h3]
            have := hm.1 h3
            constructor
            · intro h; cases h
            · rintro ⟨⟨-, h4⟩, -⟩
              exact absurd (h4 this.1) this.2
          · rw [if_neg h3]
            by_cases h2 : p.scheme = "http"
            · have h4 : clientType request = .str "web" → request.get? "response_types" = some (.arr [.str "code"]) := by
                intro h5
                exact Classical.byContradiction fun h6 => h3 (hm.2 ⟨h5, h6⟩)
              simp only [h2, List.mem_cons, true_or, not_true_eq_false, if_false, true_and]
              by_cases h5 : p.fragment = ""
              · simp only [h5, not_true_eq_false, if_false, true_and]
                rw [plain s]
                constructor
                · intro h; exact ⟨h4, h⟩
                · intro h; exact h.2
              · simp [h5]
            · simp [h1, h2]
  | _ => simp [verifyRedirectUri]

theorem verifyRedirectLoop_ok (U : Urls) (n m : Bool) : ∀ (us : List Val) (out : List (String × Val)),
    verifyRedirectLoop U n m us = .ok out ↔ out.length = us.length ∧ ∀ i (hi : i < us.length) (hj : i < out.length),
      verifyRedirectUri U n m us[i] = .ok out[i] := by
  intro us
  induction us with
  | nil =>
    intro out
    simp only [verifyRedirectLoop, Except.ok.injEq, List.length_nil, List.length_eq_zero_iff]
    exact ⟨fun h => ⟨h.symm, fun i hi => absurd hi (by simp)⟩, fun h => h.1.symm⟩
  | cons u us ih =>
    intro out
    rw [verifyRedirectLoop]
    cases hu : verifyRedirectUri U n m u with
    | error e =>
      simp only [error_bind]
      constructor
      · intro h; cases h
      · rintro ⟨hl, h⟩
        have := h 0 (by simp) (by rw [hl]; simp)
        simp only [List.getElem_cons_zero, hu] at this
        cases this
    | ok r =>
      simp only [ok_bind]
      cases hs : verifyRedirectLoop U n m us with
      | error e =>
        simp only [error_bind]
        constructor
        · intro h; cases h
        · rintro ⟨hl, h⟩
          match out, hl with
          | o :: out, hl =>
            have := (ih out).2 ⟨by simpa using hl, fun i hi hj => by
              have := h (i + 1) (by simpa using hi) (by simpa using hj)
              simpa using this⟩
            rw [hs] at this; cases this
      | ok rs =>
        simp only [ok_bind, Except.ok.injEq]
        constructor
        · rintro rfl
          have := (ih rs).1 hs
          refine ⟨by simp [this.1], ?_⟩
          intro i hi hj
          cases i with
          | zero => simpa using hu
          | succ i => simpa using this.2 i (by simpa using hi) (by simpa using hj)
        · rintro ⟨hl, h⟩
          match out, hl with
          | o :: out, hl =>
            have h0 := h 0 (by simp) (by simp)
            simp only [List.getElem_cons_zero, hu, Except.ok.injEq] at h0
            have h1 := (ih out).2 ⟨by simpa using hl, fun i hi hj => by
              have := h (i + 1) (by simpa using hi) (by simpa using hj)
              simpa using this⟩
            rw [hs] at h1
            cases h1
            rw [h0]

/-- C61 as far as it holds, exactly: a request is accepted if and only if each of its redirect URIs is a string that can be parsed, suits the application type and, unless the
client is native, has no fragment; what is recorded are the URIs in order, as base and query. Missing: the fragments of native
clients' URIs, see `C61_fragment_violation`. -/
theorem C61_exact_partial (U : Urls) (request : Dict Val) (uris : List Val) (out : List (String × Val))
    (hr : request.get? "redirect_uris" = some (.arr uris)) :
    verifyRedirectUris U request = .ok out ↔
      out.length = uris.length ∧ ∀ i (hi : i < uris.length) (hj : i < out.length), ∃ s p, uris[i] = .str s ∧ U.parse s = .ok p ∧
        SchemeSuits request p ∧ (clientType request ≠ .str "native" → p.fragment = "") ∧ Recorded U request s p out[i] := by
  have : verifyRedirectUris U request =
      verifyRedirectLoop U (decide (clientType request = .str "native")) (mustHttps request) uris := by
    simp [verifyRedirectUris, Dict.get, hr, pyIter]
  rw [this, verifyRedirectLoop_ok]
  simp only [verifyRedirectUri_iff]

/-- C61: in particular, the redirect URIs of an accepted request suit the application type, and those of a client that is not native have no fragment. -/
theorem C61_accepted_partial (U : Urls) (request : Dict Val) (uris : List Val) (out : List (String × Val))
    (hr : request.get? "redirect_uris" = some (.arr uris)) (h : verifyRedirectUris U request = .ok out) (u : Val) (hu : u ∈ uris) :
    ∃ s p, u = .str s ∧ U.parse s = .ok p ∧ SchemeSuits request p ∧ (clientType request ≠ .str "native" → p.fragment = "") := by
  obtain ⟨hl, hall⟩ := (C61_exact_partial U request uris out hr).1 h
  obtain ⟨i, hi, rfl⟩ := List.getElem_of_mem hu
  obtain ⟨s, p, h1, h2, h3, h4, -⟩ := hall i hi (by rw [hl]; exact hi)
  exact ⟨s, p, h1, h2, h3, h4⟩

example : verifyRedirectUris Ex.U (Ex.request "web" ["https://rp/cb"]) = .ok [("https://rp/cb", .obj [])] ∧
    verifyRedirectUris Ex.U (Ex.request "web" ["https://rp/cb", "http://rp/cb"]) = .error .invalidRedirectUri ∧
    verifyRedirectUris Ex.U (("response_types", .arr [.str "code"]) :: Ex.request "web" ["https://rp/cb", "http://rp/cb"]) =
      .ok [("https://rp/cb", .obj []), ("http://rp/cb", .obj [])] ∧
    verifyRedirectUris Ex.U (Ex.request "native" ["http://rp/cb"]) = .error .invalidRedirectUri := by decide

/-! ## C62 -/

/-- The server says nothing about the claim: it does not know it, or states no support for it. -/
def Silent (A : Capabilities) (k : String) : Prop := A.preferred.get? k = none ∨ A.support.get? (A.nameOf k) = none

/-- The value is one the server supports: one of those listed, or a list of such; or just the one value stated. -/
def SupportedBy (sup v : Val) : Prop :=
  match sup with
  | .arr xs => v ∈ xs ∨ ∃ ys, v = .arr ys ∧ ∀ y ∈ ys, y ∈ xs
  | s => v = s

/-- C62 in full, first half: claims the server says nothing about are untouched. -/
def C62_untouched_full : Prop :=
  ∀ (A : Capabilities) (E : SetEnum Val) (request out : Dict Val), (Dict.keys request).Nodup → filterRequest A E request = .ok out →
    ∀ k, Silent A k → out.get? k = request.get? k

/-- C62 in full, second half: the values left are supported ones. -/
def C62_supported_full : Prop :=
  ∀ (A : Capabilities) (E : SetEnum Val) (request out : Dict Val), (Dict.keys request).Nodup → filterRequest A E request = .ok out →
    ∀ k v sup, A.preferred.get? k ≠ none → A.support.get? (A.nameOf k) = some sup → out.get? k = some v → SupportedBy sup v

/-- The first half does not hold: a claim whose value is `false` (or 0, or empty) is dropped. -/
theorem C62_false_dropped_violation : ¬ C62_untouched_full := by
  intro h
  have := h ⟨[("require_auth_time", "require_auth_time")], [], []⟩ SetEnum.insertion [("require_auth_time", .bool false)] []
    (by decide) (by decide) "require_auth_time" (.inr rfl)
  exact absurd this (by decide)

/-- The second half does not hold: if the server's support is stated as a string, its parts count as supported. -/
theorem C62_substring_violation : ¬ C62_supported_full := by
  intro h
  have := h ⟨[("response_types", "response_types_supported")], [("response_types_supported", .str "code")], [("response_types", true)]⟩
    SetEnum.insertion [("response_types", .str "cod")] [("response_types", .str "cod")] (by decide) (by decide)
    "response_types" (.str "cod") (.str "code") (by decide) rfl rfl
  exact absurd this (by unfold SupportedBy; decide)

theorem pySet_ok {a : Val} {l : List Val} (ha : pySet a = .ok l) : pyIter a = .ok l := by
  unfold pySet at ha
  cases hi : pyIter a with
  | error e => rw [hi] at ha; simp at ha
  | ok m =>
    rw [hi] at ha
    simp only [ok_bind, mkSet] at ha
    split at ha
    · exact ha
    · cases ha

theorem pySet_err {a : Val} {e : PyErr} (ha : pySet a = .error e) : e = .typeError := by
  unfold pySet at ha
  cases hi : pyIter a with
  | error e' =>
    rw [hi] at ha
    cases a <;> simp [pyIter] at hi <;> subst hi <;> simpa using ha.symm
  | ok m =>
    rw [hi] at ha
    simp only [ok_bind, mkSet] at ha
    split at ha
    · cases ha
    · simpa using ha.symm

/-- The outcome for each claim. -/
theorem filterRequest_get? (A : Capabilities) (E : SetEnum Val) : ∀ (request out : Dict Val), (Dict.keys request).Nodup →
    filterRequest A E request = .ok out → ∀ k,
    (Dict.get? request k = none → Dict.get? out k = none) ∧
    (∀ v, Dict.get? request k = some v →
      (A.preferred.get? k = none → Dict.get? out k = some v) ∧
      (A.preferred.get? k ≠ none → ∃ w, matchClaim A E k v = .ok w ∧ Dict.get? out k = if w.truthy then some w else none)) := by
  intro request
  induction request with
  | nil =>
    intro out _ h k
    simp only [filterRequest, Except.ok.injEq] at h
    subst h
    exact ⟨fun _ => rfl, fun v h => by simp at h⟩
  | cons p rest ih =>
    obtain ⟨q, v⟩ := p
    intro out hn h k
    have hn' : q ∉ Dict.keys rest ∧ (Dict.keys rest).Nodup := by
      simpa only [Dict.keys, List.map_cons, List.nodup_cons] using hn
    rw [filterRequest] at h
    have hq : Dict.get? rest q = none := (Dict.get?_eq_none_iff rest q).2 hn'.1
    cases hr : filterRequest A E rest with
    | error e =>
      rw [hr] at h
      split at h
      · cases hm : matchClaim A E q v <;> rw [hm] at h <;> simp at h
      · simp at h
    | ok r =>
      rw [hr] at h
      have ihr := ih r hn'.2 hr
      have hrq : Dict.get? r q = none := (ihr q).1 hq
      by_cases hk : q = k
      · subst hk
        refine ⟨fun h0 => by simp [Dict.get?_cons] at h0, ?_⟩
        intro v' hv'
        simp only [Dict.get?_cons, if_true, Option.some.injEq] at hv'
        subst hv'
        split at h
        · rename_i hp
          have hp' : A.preferred.get? q ≠ none := by
            intro h0; simp [Dict.has, h0] at hp
          refine ⟨fun h0 => absurd h0 hp', fun _ => ?_⟩
          cases hm : matchClaim A E q v with
          | error e => rw [hm] at h; simp at h
          | ok w =>
            rw [hm] at h
            simp only [ok_bind] at h
            refine ⟨w, rfl, ?_⟩
            split at h <;> rename_i hw <;> simp only [Except.ok.injEq] at h <;> subst h
            · simp [Dict.get?_cons, hw]
            · simp [hw, hrq]
        · rename_i hp
          have hp' : A.preferred.get? q = none := by
            cases h0 : A.preferred.get? q with
            | none => rfl
            | some x => simp [Dict.has, h0] at hp
          simp only [ok_bind, Except.ok.injEq] at h
          subst h
          exact ⟨fun _ => by simp [Dict.get?_cons], fun h0 => absurd hp' h0⟩
      · have hout : Dict.get? out k = Dict.get? r k := by
          split at h
          · cases hm : matchClaim A E q v with
            | error e => rw [hm] at h; simp at h
            | ok w =>
              rw [hm] at h
              simp only [ok_bind] at h
              split at h <;> simp only [Except.ok.injEq] at h <;> subst h
              · simp [Dict.get?_cons, hk]
              · rfl
          · simp only [ok_bind, Except.ok.injEq] at h
            subst h
            simp [Dict.get?_cons, hk]
        rw [hout, Dict.get?_cons, if_neg hk]
        exact ihr k

/-- C62, first half as far as it holds: a claim the server does not know is untouched; one it states no support for is left as it is unless its value
counts as false, and is then dropped; nothing is added. Missing: `false`, 0 and empty values, see `C62_false_dropped_violation`. -/
theorem C62_untouched_partial (A : Capabilities) (E : SetEnum Val) (request out : Dict Val) (hn : (Dict.keys request).Nodup)
    (h : filterRequest A E request = .ok out) (k : String) :
    (A.preferred.get? k = none → Dict.get? out k = Dict.get? request k) ∧
    (A.support.get? (A.nameOf k) = none → A.preferred.get? k ≠ none → Dict.get? out k = (Dict.get? request k).filter Val.truthy) ∧
    (Dict.get? request k = none → Dict.get? out k = none) := by
  have key := filterRequest_get? A E request out hn h k
  refine ⟨fun hp => ?_, fun hs hp => ?_, key.1⟩
  · cases hv : Dict.get? request k with
    | none => exact key.1 hv
    | some v => exact (key.2 v hv).1 hp
  · cases hv : Dict.get? request k with
    | none => rw [key.1 hv]; rfl
    | some v =>
      obtain ⟨w, h1, h2⟩ := (key.2 v hv).2 hp
      simp only [matchClaim, hs, Except.ok.injEq] at h1
      subst h1
      rw [h2]
      simp only [Option.filter]

/-- C62, second half as far as it holds: where the server lists what it supports, the value left is the one requested and in the list, or, for a claim that is a list, a non-empty list of
exactly the requested values that the server lists. Missing: support stated as a string, see `C62_substring_violation`. -/
theorem C62_supported_partial (A : Capabilities) (E : SetEnum Val) (request out : Dict Val) (hn : (Dict.keys request).Nodup)
    (h : filterRequest A E request = .ok out) (k : String) (v : Val) (xs : List Val) (hp : A.preferred.get? k ≠ none)
    (hs : A.support.get? (A.nameOf k) = some (.arr xs)) (hv : Dict.get? out k = some v) :
    ∃ r, Dict.get? request k = some r ∧
      ((v = r ∧ v ∈ xs) ∨
       (A.isListClaim.get? k = some true ∧ ∃ ys vs, v = .arr ys ∧ pyIter r = .ok vs ∧ ys ≠ [] ∧ ys.Nodup ∧ ∀ y, y ∈ ys ↔ y ∈ xs ∧ y ∈ vs)) := by
  have key := filterRequest_get? A E request out hn h k
  cases hr : Dict.get? request k with
  | none => rw [key.1 hr] at hv; cases hv
  | some r =>
    refine ⟨r, rfl, ?_⟩
    obtain ⟨w, h1, h2⟩ := (key.2 r hr).2 hp
    rw [hv] at h2
    have hw : w.truthy = true ∧ w = v := by
      split at h2
      · rename_i ht
        cases h2
        exact ⟨ht, rfl⟩
      · cases h2
    obtain ⟨ht, rfl⟩ := hw
    have nn : w ≠ .null := by rintro rfl; simp [Val.truthy] at ht
    simp only [matchClaim, hs] at h1
    cases hl : A.isListClaim.get? k with
    | none => rw [hl] at h1; simp only [Except.ok.injEq] at h1; exact absurd h1.symm nn
    | some isList =>
      rw [hl] at h1
      simp only at h1
      split at h1
      · cases isList with
        | false =>
          simp only [Bool.false_eq_true, if_false] at h1
          split at h1 <;> simp only [Except.ok.injEq] at h1
          · rename_i hm
            exact .inl ⟨h1.symm, h1 ▸ hm⟩
          · exact absurd h1.symm nn
        | true =>
          simp only [if_true] at h1
          have gen : (pySet (.arr xs) >>= fun s => pySet r >>= fun v =>
              (if (s.filter fun x => decide (x ∈ v)).isEmpty then Except.error PyErr.capabilitiesMismatch
                else .ok (.arr (E.enum (s.filter fun x => decide (x ∈ v)))))) = .ok w →
              ∃ ys vs, w = .arr ys ∧ pyIter r = .ok vs ∧ ys ≠ [] ∧ ys.Nodup ∧ ∀ y, y ∈ ys ↔ y ∈ xs ∧ y ∈ vs := by
            intro h1
            cases hx : pySet (.arr xs) with
            | error e => rw [hx] at h1; simp at h1
            | ok s =>
              have hsx : xs = s := by have := pySet_ok hx; simpa [pyIter] using this
              subst hsx
              rw [hx] at h1
              simp only [ok_bind] at h1
              cases hy : pySet r with
              | error e => rw [hy] at h1; simp at h1
              | ok vs =>
                rw [hy] at h1
                simp only [ok_bind] at h1
                split at h1
                · cases h1
                · rename_i hne
                  simp only [Except.ok.injEq] at h1
                  refine ⟨_, vs, h1.symm, pySet_ok hy, ?_, E.nodup_enum _, fun y => by rw [E.mem_enum]; simp⟩
                  intro h0
                  apply hne
                  rw [List.isEmpty_iff]
                  apply List.eq_nil_iff_forall_not_mem.2
                  intro y hy0
                  have := (E.mem_enum _ y).2 hy0
                  rw [h0] at this
                  simp at this
          cases r with
          | str s =>
            simp only [pyIn, ok_bind] at h1
            split at h1 <;> simp only [Except.ok.injEq] at h1
            · rename_i hm
              exact .inl ⟨h1.symm, by simpa [← h1] using hm⟩
            · exact absurd h1.symm nn
          | null => exact .inr ⟨rfl, gen h1⟩
          | bool b => exact .inr ⟨rfl, gen h1⟩
          | int i => exact .inr ⟨rfl, gen h1⟩
          | arr l => exact .inr ⟨rfl, gen h1⟩
          | obj o => exact .inr ⟨rfl, gen h1⟩
      · simp only [Except.ok.injEq] at h1
        exact absurd h1.symm nn

namespace Ex
/-- A server that supports two grant types and one authentication method. -/
def A : Capabilities where
  preferred := [("grant_types", "grant_types_supported"), ("auth_method", "auth_methods_supported")]
  support := [("grant_types_supported", .arr [.str "code", .str "implicit"]), ("auth_methods_supported", .arr [.str "pkjwt"])]
  isListClaim := [("grant_types", true), ("auth_method", false)]
end Ex

example : filterRequest Ex.A SetEnum.insertion
      [("grant_types", .arr [.str "implicit", .str "password"]), ("auth_method", .str "none"), ("client_name", .str "n")] =
    .ok [("grant_types", .arr [.str "implicit"]), ("client_name", .str "n")] := by decide

/-- C62: a list claim of which the server supports nothing makes the request be refused; this is the only capability mismatch. -/
theorem C62_refused (A : Capabilities) (E : SetEnum Val) (request : Dict Val) (h : filterRequest A E request = .error .capabilitiesMismatch) :
    ∃ k r sup s vs, (k, r) ∈ request ∧ A.preferred.get? k ≠ none ∧ A.support.get? (A.nameOf k) = some sup ∧ A.isListClaim.get? k = some true ∧
      pyIter sup = .ok s ∧ pyIter r = .ok vs ∧ ∀ y ∈ s, y ∉ vs := by
  have hm : ∀ k r, matchClaim A E k r = .error .capabilitiesMismatch → ∃ sup s vs, A.support.get? (A.nameOf k) = some sup ∧
      A.isListClaim.get? k = some true ∧ pyIter sup = .ok s ∧ pyIter r = .ok vs ∧ ∀ y ∈ s, y ∉ vs := by
    intro k r h1
    unfold matchClaim at h1
    cases hs : A.support.get? (A.nameOf k) with
    | none => rw [hs] at h1; simp at h1
    | some sup =>
      rw [hs] at h1
      cases hl : A.isListClaim.get? k with
      | none => rw [hl] at h1; simp at h1
      | some isList =>
        rw [hl] at h1
        simp only at h1
        split at h1
        · cases isList with
          | false =>
            exfalso
            simp only [Bool.false_eq_true, if_false] at h1
            cases sup <;> simp only at h1 <;> split at h1 <;> simp at h1
          | true =>
            simp only [if_true] at h1
            have gen : (pySet sup >>= fun s => pySet r >>= fun v =>
                (if (s.filter fun x => decide (x ∈ v)).isEmpty then Except.error PyErr.capabilitiesMismatch
                  else .ok (Val.arr (E.enum (s.filter fun x => decide (x ∈ v)))))) = .error .capabilitiesMismatch →
                ∃ s vs, pyIter sup = .ok s ∧ pyIter r = .ok vs ∧ ∀ y ∈ s, y ∉ vs := by
              intro h1
              cases hx : pySet sup with
              | error e =>
                rw [hx] at h1
                simp only [error_bind, Except.error.injEq] at h1
                subst h1
                exact absurd (pySet_err hx) (by decide)
              | ok s =>
                rw [hx] at h1
                cases hy : pySet r with
                | error e =>
                  rw [hy] at h1
                  simp only [ok_bind, error_bind, Except.error.injEq] at h1
                  subst h1
                  exact absurd (pySet_err hy) (by decide)
                | ok vs =>
                  rw [hy] at h1
                  simp only [ok_bind] at h1
                  split at h1
                  · rename_i hne
                    rw [List.isEmpty_iff] at hne
                    refine ⟨s, vs, pySet_ok hx, pySet_ok hy, ?_⟩
                    intro y hy1 hy2
                    have : y ∈ s.filter fun x => decide (x ∈ vs) := by simp [hy1, hy2]
                    rw [hne] at this
                    simp at this
                  · cases h1
            cases r with
            | str s =>
              exfalso
              simp only at h1
              cases hb : pyIn (.str s) sup with
              | error e =>
                rw [hb] at h1
                simp only [error_bind, Except.error.injEq] at h1
                subst h1
                cases sup <;> simp [pyIn, Val.hashable] at hb
              | ok b => rw [hb] at h1; cases b <;> simp at h1
            | null => obtain ⟨s, vs, h2⟩ := gen h1; exact ⟨sup, s, vs, rfl, rfl, h2⟩
            | bool b => obtain ⟨s, vs, h2⟩ := gen h1; exact ⟨sup, s, vs, rfl, rfl, h2⟩
            | int i => obtain ⟨s, vs, h2⟩ := gen h1; exact ⟨sup, s, vs, rfl, rfl, h2⟩
            | arr l => obtain ⟨s, vs, h2⟩ := gen h1; exact ⟨sup, s, vs, rfl, rfl, h2⟩
            | obj o => obtain ⟨s, vs, h2⟩ := gen h1; exact ⟨sup, s, vs, rfl, rfl, h2⟩
        · simp at h1
  induction request with
  | nil => simp [filterRequest] at h
  | cons p rest ih =>
    obtain ⟨q, v⟩ := p
    rw [filterRequest] at h
    split at h
    · rename_i hp
      cases hw : matchClaim A E q v with
      | error e =>
        rw [hw] at h
        simp only [error_bind, Except.error.injEq] at h
        subst h
        obtain ⟨sup, s, vs, h2⟩ := hm q v hw
        refine ⟨q, v, sup, s, vs, by simp, ?_, h2⟩
        intro h0
        simp [Dict.has, h0] at hp
      | ok w =>
        rw [hw] at h
        simp only [ok_bind] at h
        cases hr : filterRequest A E rest with
        | error e => rw [hr] at h; simp only [error_bind, Except.error.injEq] at h; subst h; obtain ⟨k, r, sup, s, vs, h1, h2⟩ := ih hr; exact ⟨k, r, sup, s, vs, List.mem_cons_of_mem _ h1, h2⟩
        | ok r => rw [hr] at h; simp only [ok_bind] at h; split at h <;> cases h
    · cases hr : filterRequest A E rest with
      | error e => rw [hr] at h; simp only [error_bind, Except.error.injEq] at h; subst h; obtain ⟨k, r, sup, s, vs, h1, h2⟩ := ih hr; exact ⟨k, r, sup, s, vs, List.mem_cons_of_mem _ h1, h2⟩
      | ok r => rw [hr] at h; simp at h

example : filterRequest Ex.A SetEnum.insertion [("grant_types", .arr [.str "password"])] = .error .capabilitiesMismatch := by decide

end Fed.Registration
