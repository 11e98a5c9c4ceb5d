import Verif.Client.Requests
import Verif.Server.ResolveProps
/-
Model of the resolve request, /repo/src/fedservice/entity/client/resolve.py, read by the resolve endpoint. Property C183: asking a resolver.
-/
namespace Fed.Client.Resolving
open Fed Fed.Client.Requests Fed.Verify Fed.Chains

/-- `Message(**args)`: members that are empty texts are left out (idpyoidc). -/
def kept (args : Dict String) : Dict String := args.filter fun p => decide (p.2 ≠ "")

/-- `Resolve.get_request_parameters` (resolve.py 28-51) with `ResolveRequest` (/repo/src/fedservice/message.py 501-506): subject and anchor are required; `none` for no arguments (TypeError).
Simplification: the arguments are texts; others are refused, or turned into texts, by idpyoidc. -/
def resolveRequest (args : Option (Dict String)) (endpoint : String) : Except PyErr Get :=
  if endpoint = "" then .error .attributeError
  else
    match args with
    | none => .error .typeError
    | some args =>
      if (kept args).has "sub" ∧ (kept args).has "anchor" then .ok ⟨endpoint, kept args⟩ else .error .missingAttribute

/-- The request as the endpoint reads it (/repo/src/fedservice/entity/server/resolve.py 30-47): `request['anchor']`, `request['sub']`, `request['type']`. -/
def asked (q : Dict String) : Server.ResolveRequest := { sub := q.get? "sub", anchor := q.get? "anchor", type := q.get? "type" }

theorem kept_get (args : Dict String) (hd : args.keys.Nodup) (k : String) : (kept args).get? k = (args.get? k).filter fun v => decide (v ≠ "") := by
  induction args with
  | nil => rfl
  | cons p args ih =>
    have hd' : p.1 ∉ Dict.keys args ∧ (Dict.keys args).Nodup := by simpa [Dict.keys] using hd
    rw [Dict.get?_cons]
    unfold kept at ih ⊢
    rw [List.filter_cons]
    by_cases hp : p.2 ≠ ""
    · rw [if_pos (by simpa using hp), Dict.get?_cons]
      by_cases hk : p.1 = k
      · simp [hk, hp, Option.filter]
      · simp only [if_neg hk]
        exact ih hd'.2
    · rw [if_neg (by simpa using hp)]
      by_cases hk : p.1 = k
      · have hn : Dict.get? args k = none := (Dict.get?_eq_none_iff _ _).2 (hk ▸ hd'.1)
        rw [ih hd'.2, hn, if_pos hk]
        have : p.2 = "" := by simpa using hp
        simp [this, Option.filter]
      · rw [if_neg hk]
        exact ih hd'.2

/-- C183: a request that names no subject, or no anchor, or for which no endpoint is known, is not sent. -/
theorem C183_incomplete (args : Dict String) (endpoint : String) (hd : args.keys.Nodup)
    (h : endpoint = "" ∨ (args.get? "sub").getD "" = "" ∨ (args.get? "anchor").getD "" = "") : ∃ e, resolveRequest (some args) endpoint = .error e := by
  unfold resolveRequest
  by_cases he : endpoint = ""
  · exact ⟨_, if_pos he⟩
  · rw [if_neg he]
    simp only
    have no : ∀ k, (args.get? k).getD "" = "" → (kept args).has k = false := by
      intro k hk
      rw [Dict.has, kept_get args hd]
      cases hg : args.get? k with
      | none => rfl
      | some v =>
        rw [hg] at hk
        simp only [Option.getD_some] at hk
        simp [hk]
    rcases h with h | h | h
    · exact absurd h he
    · exact ⟨_, if_neg (by simp [no _ h])⟩
    · exact ⟨_, if_neg (by simp [no _ h])⟩

/-- C183: any other request goes to the endpoint given, and a resolver that runs this software and answers it gives a statement of its own about the subject asked for, with the metadata, or the metadata
of the entity type asked for, of a chain verified at that time from the subject to the anchor asked for. -/
theorem C183_answer (R : Server.Resolver) (V : Env) (st : State) (withTa : Bool) (args : Dict String) (endpoint sub anchor : String) (hd : args.keys.Nodup) (he : endpoint ≠ "")
    (h1 : args.get? "sub" = some sub) (h2 : args.get? "anchor" = some anchor) (hs : sub ≠ "") (ha : anchor ≠ "") :
    ∃ r, resolveRequest (some args) endpoint = .ok r ∧ r.target = endpoint ∧ ∀ p, (Server.resolve R V st (asked r.query) withTa).1 = .ok p →
      p.get? "iss" = some (.str R.entityId) ∧ p.get? "sub" = some (.str sub) ∧
      ∃ out tc, (getVerified V st sub anchor).1 = .ok out ∧ tc ∈ out ∧ tc.anchor = anchor ∧ Provenance V st sub tc ∧
        ((args.get? "type").getD "" = "" → tc.metadata ≠ [] → p.get? "metadata" = some (.obj tc.metadata)) ∧
        ∀ t, args.get? "type" = some t → t ≠ "" → ∃ v, Dict.get? tc.metadata t = some v ∧ p.get? "metadata" = some (.obj [(t, v)]) := by
  have g1 : (kept args).get? "sub" = some sub := by rw [kept_get args hd, h1]; simp [hs]
  have g2 : (kept args).get? "anchor" = some anchor := by rw [kept_get args hd, h2]; simp [ha]
  refine ⟨⟨endpoint, kept args⟩, ?_, rfl, ?_⟩
  · unfold resolveRequest
    rw [if_neg he]
    simp only
    rw [if_pos (by simp [Dict.has, g1, g2])]
  · intro p hp
    obtain ⟨sub', anchor', out, tc, e1, e2, h3, h4, h5, h6, i1, i2, -, i4, i5⟩ := Server.C58_answer _ _ _ _ _ _ hp
    simp only [asked] at e1 e2 i4 i5
    rw [g1] at e1
    rw [g2] at e2
    cases e1
    cases e2
    refine ⟨i1, i2, out, tc, h3, h4, h5, h6, ?_, ?_⟩
    · intro ht hne
      refine i4 ?_ hne
      rw [kept_get args hd]
      cases hg : args.get? "type" with
      | none => rfl
      | some v =>
        rw [hg] at ht
        simp only [Option.getD_some] at ht
        simp [ht]
    · intro t ht hne
      refine i5 t ?_
      rw [kept_get args hd, ht]
      simp [hne]

example : resolveRequest (some [("sub", "https://leaf"), ("anchor", "https://ta"), ("type", "openid_relying_party")]) "https://ta/resolve" =
    .ok ⟨"https://ta/resolve", [("sub", "https://leaf"), ("anchor", "https://ta"), ("type", "openid_relying_party")]⟩ ∧
  ((Server.resolve ⟨"https://ta", .null, fun _ => .null⟩ (Chains.Ex.env (Chains.Ex.W 0)) Chains.Ex.st (asked [("sub", "https://leaf"), ("anchor", "https://ta")])).1.toOption.bind (·.get? "sub")) =
    some (.str "https://leaf") := by decide +kernel

end Fed.Client.Resolving
