import Verif.Chains.AtOnceSound
import Verif.Registration.AutomaticProps
import Verif.TrustMarks.VerifyProps
/-
What an OpenID provider takes for the trust chains and the metadata of an entity, after requests that were made in the name of this and of other entities.
The functions are those of `Registration.Automatic`, `Chains.Model` and `TrustMarks.Verify`; here they are used one after the other.
-/
namespace Fed.Registration.Named
open Fed Fed.Verify Fed.Chains Fed.Chains.AtOnce Fed.Chains.AtOnce.Prog

/-- What happens to a provider: something asks it for the trust chains of an entity, by way of those stored or not, or an authorization request arrives that names a client and may bring
a trust chain along (leaf first). -/
inductive Event
  | resolve (e : String)
  | collect (e stopAt : String)
  | request (client : String) (sent : List Doc)

/-- What is left of it: `get_trust_chains` (/repo/src/fedservice/entity/__init__.py 268-277), `get_verified_trust_chains` (/repo/src/fedservice/entity/function/__init__.py 154-161),
`client_authentication` (/repo/src/fedservice/appserver/oidc/authorization.py 95-130). -/
def happen (A : AutoEnv) (st : AppState) (x : Collect.World × Event) : AppState :=
  match x.2 with
  | .resolve e => { st with fed := (getTrustChains { A.V with W := x.1 } st.fed e).2 }
  | .collect e stopAt => { st with fed := (getVerified { A.V with W := x.1 } st.fed e stopAt).2 }
  | .request client sent => (clientAuthentication { A with V := { A.V with W := x.1 } } .oidc st client sent).2

/-- One after the other. -/
def after (A : AutoEnv) (st : AppState) (h : List (Collect.World × Event)) : AppState := h.foldl (happen A) st

/-! ### The threads of `Chains.AtOnce` do the same -/

theorem registrationP_run (A : AutoEnv) (client : String) (sent : List Doc) (fed : State) :
    (registrationP A.V client sent).run fed =
      match registrationChains A fed client sent with
      | (.error e, fed) => (.error e, fed)
      | (.ok [], fed) => (.error .noTrustedChains, fed)
      | (.ok (tc :: tcs), fed) => (.ok (tc :: tcs), { fed with store := fed.store.set client (tc :: tcs) }) := by
  have first : (if sent.isEmpty then getVerifiedP A.V client else givenChainsP A.V sent.reverse).run fed = registrationChains A fed client sent := by
    unfold registrationChains
    split
    · exact getVerifiedP_run _ _ _ _
    · rw [givenChainsP, run_andThen, verifyChainsP_run]
      obtain ⟨r, jar⟩ := verifyChains A.V.L [sent.reverse] fed.jar
      cases r <;> rfl
  rw [registrationP, run_andThen, first]
  obtain ⟨r, fed1⟩ := registrationChains A fed client sent
  cases r with
  | error e => rfl
  | ok tcs => cases tcs <;> rfl

/-- A request changes what is known of the federation as a registration does, or not at all. -/
theorem request_fed (A : AutoEnv) (st : AppState) (client : String) (sent : List Doc) :
    (clientAuthentication A .oidc st client sent).2.fed = st.fed ∨ (clientAuthentication A .oidc st client sent).2.fed = ((registrationP A.V client sent).run st.fed).2 := by
  have auto : ∀ st : AppState, (doAutomatic A .oidc st client sent).2.fed = ((registrationP A.V client sent).run st.fed).2 := by
    intro st
    rw [registrationP_run, doAutomatic]
    obtain ⟨r, fed⟩ := registrationChains A st.fed client sent
    cases r with
    | error e => rfl
    | ok tcs =>
      cases tcs with
      | nil => rfl
      | cons tc tcs =>
        simp only [if_true]
        cases tc.metadata.get? Kind.oidc.leafType with
        | none => rfl
        | some v => cases v <;> rfl
  unfold clientAuthentication
  split
  · exact Or.inl rfl
  · cases automaticSupported .oidc A.supported with
    | error e => exact Or.inl rfl
    | ok b =>
      cases b with
      | false => exact Or.inl rfl
      | true =>
        right
        simp only
        have h := auto { st with srv := { st.srv with cdb := st.srv.cdb.filter fun p => p.1 ≠ client } }
        generalize doAutomatic A .oidc { st with srv := { st.srv with cdb := st.srv.cdb.filter fun p => p.1 ≠ client } } client sent = r at h ⊢
        obtain ⟨r, st1⟩ := r
        simp only at h
        rw [← h]
        cases r with
        | error e => rfl
        | ok o =>
          cases o with
          | none => rfl
          | some rid =>
            simp only
            obtain ⟨r, cdb⟩ := alsoKnownAs .oidc st1.srv.cdb client rid
            cases r <;> rfl

/-- A thread that gets all its turns in a row. -/
theorem turns_alone {α : Type} (i : Nat) : ∀ (p : Prog α) (y : Sys α), y.left i = p →
    ∃ n, (turns y (List.replicate n i)).shared = (p.run y.shared).2 ∧ (turns y (List.replicate n i)).left i = .ret (p.run y.shared).1
  | .ret a, y, h => ⟨0, rfl, h⟩
  | .act f k, y, h => by
    obtain ⟨n, h1, h2⟩ := turns_alone i (k y.shared) (turn y i) (by simp [turn, h, Prog.step])
    refine ⟨n + 1, ?_, ?_⟩
    · rw [List.replicate_succ]; show (turns (turn y i) _).shared = _; rw [h1]; simp [turn, h, Prog.step, Prog.run]
    · rw [List.replicate_succ]; show (turns (turn y i) _).left i = _; rw [h2]; simp [turn, h, Prog.step, Prog.run]

/-- The work an event is. -/
def Event.job : Event → Job
  | .resolve e => .chains e
  | .collect e stopAt => .verified e stopAt
  | .request client sent => .register client sent

/-- The worlds of a history, one for each event; `W` afterwards. -/
def worlds (h : List (Collect.World × Event)) (W : Collect.World) (i : Nat) : Collect.World := ((h[i]?).map (·.1)).getD W

/-- The work of a history; afterwards `e` is resolved. -/
def jobs (h : List (Collect.World × Event)) (e : String) (i : Nat) : Job := ((h[i]?).map (·.2.job)).getD (.chains e)

theorem happen_turns (A : AutoEnv) (h : List (Collect.World × Event)) (W : Collect.World) (e : String) (st : AppState) : ∀ n, n ≤ h.length →
    ∃ ts : List Nat, (∀ i ∈ ts, i < n) ∧ (turns (working A.V (worlds h W) (jobs h e) st.fed) ts).shared = (after A st (h.take n)).fed
  | 0, _ => ⟨[], by simp, rfl⟩
  | n + 1, hn => by
    obtain ⟨ts, h1, h2⟩ := happen_turns A h W e st n (by omega)
    have hget : h[n]? = some h[n] := List.getElem?_eq_getElem (by omega)
    have htake : h.take (n + 1) = h.take n ++ [h[n]] := by rw [List.take_succ, hget]; rfl
    have hafter : after A st (h.take (n + 1)) = happen A (after A st (h.take n)) h[n] := by rw [htake, after, List.foldl_append]; rfl
    have hleft : (turns (working A.V (worlds h W) (jobs h e) st.fed) ts).left n = (jobs h e n).prog A.V (worlds h W n) :=
      left_of_not_mem fun hm => absurd (h1 n hm) (by omega)
    obtain ⟨m, h3, -⟩ := turns_alone n _ _ hleft
    rw [h2] at h3
    have hj : jobs h e n = h[n].2.job := by rw [jobs, hget]; rfl
    have hw : worlds h W n = h[n].1 := by rw [worlds, hget]; rfl
    rw [hj, hw] at h3
    have all : (happen A (after A st (h.take n)) h[n]).fed = (after A st (h.take n)).fed ∨
        (happen A (after A st (h.take n)) h[n]).fed = ((h[n].2.job.prog A.V h[n].1).run (after A st (h.take n)).fed).2 := by
      unfold happen
      cases h[n].2 with
      | resolve e => right; simp only [Event.job, Job.prog, getTrustChainsP_run]
      | collect e stopAt => right; simp only [Event.job, Job.prog, getVerifiedP_run]
      | request client sent => exact request_fed { A with V := { A.V with W := h[n].1 } } _ client sent
    rw [hafter]
    rcases all with all | all
    · exact ⟨ts, fun i hi => by have := h1 i hi; omega, by rw [all, h2]⟩
    · refine ⟨ts ++ List.replicate m n, fun i hi => ?_, by rw [turns_append, all, h3]⟩
      rcases List.mem_append.1 hi with hi | hi
      · have := h1 i hi; omega
      · have := List.eq_of_mem_replicate hi; omega

/-- What resolving an entity gives after a history is what a thread of it ends with. -/
theorem resolve_turns (A : AutoEnv) (st : AppState) (h : List (Collect.World × Event)) (W : Collect.World) (e : String) :
    ∃ ts i, jobs h e i = .chains e ∧ (turns (working A.V (worlds h W) (jobs h e) st.fed) ts).left i = .ret (getTrustChains { A.V with W := W } (after A st h).fed e).1 ∧
      (turns (working A.V (worlds h W) (jobs h e) st.fed) ts).shared = (getTrustChains { A.V with W := W } (after A st h).fed e).2 := by
  obtain ⟨ts, h1, h2⟩ := happen_turns A h W e st h.length (Nat.le_refl _)
  rw [List.take_length] at h2
  have hj : jobs h e h.length = .chains e := by simp [jobs]
  have hw : worlds h W h.length = W := by simp [worlds]
  have hleft : (turns (working A.V (worlds h W) (jobs h e) st.fed) ts).left h.length = (jobs h e h.length).prog A.V (worlds h W h.length) :=
    left_of_not_mem fun hm => absurd (h1 _ hm) (by omega)
  obtain ⟨m, h3, h4⟩ := turns_alone h.length _ _ hleft
  rw [hj, hw, h2] at h3 h4
  simp only [Job.prog, getTrustChainsP_run] at h3 h4
  exact ⟨ts ++ List.replicate m h.length, h.length, hj, by rw [turns_append, h4], by rw [turns_append, h3]⟩

/-! ### C214 -/

/-- No request that was made in the name of the entity brought a trust chain along. -/
def Unnamed (h : List (Collect.World × Event)) (e : String) : Prop := ∀ W sent, (W, Event.request e sent) ∈ h → sent = []

theorem Unnamed.not_named {h : List (Collect.World × Event)} {e : String} (hn : Unnamed h e) (e' : String) (chain : List Doc) : ¬ Named (jobs h e') e chain := by
  rintro ⟨i, sent, h1, h2, -⟩
  unfold jobs at h1
  cases hi : h[i]? with
  | none => rw [hi] at h1; cases h1
  | some x =>
    rw [hi] at h1
    obtain ⟨W, ev⟩ := x
    have hm := List.mem_of_getElem? hi
    cases ev with
    | resolve => cases h1
    | collect => cases h1
    | request client sent' => cases h1; exact h2 (hn W sent hm)

/-- C214 in full: whatever happened to a provider before, the chains it takes for those of an entity lead up from a configuration that the entity itself published. -/
def C214_full : Prop :=
  ∀ (A : AutoEnv) (st : AppState) (h : List (Collect.World × Event)) (W : Collect.World) (e : String) (tcs : List TrustChain), st.fed.store = [] →
    (getTrustChains { A.V with W := W } (after A st h).fed e).1 = .ok tcs → ∀ tc ∈ tcs, Leads A.V (worlds h W) st.fed e tc

/-- C214 as far as it holds: of entities in whose name no request brought a trust chain along, whatever was sent in the name of others. The metadata is that of the chain. -/
theorem C214_history_partial (A : AutoEnv) (st : AppState) (h : List (Collect.World × Event)) (W : Collect.World) (e : String) (tcs : List TrustChain) (hs : st.fed.store = [])
    (hn : Unnamed h e) (ht : (getTrustChains { A.V with W := W } (after A st h).fed e).1 = .ok tcs) (tc : TrustChain) (htc : tc ∈ tcs) :
    Leads A.V (worlds h W) st.fed e tc ∧ ∃ tc0, (verifyChain A.V.L (getTrustChains { A.V with W := W } (after A st h).fed e).2.jar tc.chain).1 = .ok (some tc0) ∧
      applyToChain A.V.E A.V.K tc0 = .ok tc := by
  obtain ⟨ts, i, h1, h2, h3⟩ := resolve_turns A st h W e
  rw [ht] at h2
  have h4 := C213_sound A.V (worlds h W) (jobs h e) st.fed hs ts i tcs h2 tc htc
  rw [h1, h3] at h4
  obtain ⟨h5, h6⟩ := h4
  exact ⟨h6.resolve_right (hn.not_named e _), h5.accepted⟩

/-- Whatever was sent, in whatever name: what is taken for the chains of an entity was at least accepted, and is either its own or one that was sent in its name. -/
theorem C214_sent (A : AutoEnv) (st : AppState) (h : List (Collect.World × Event)) (W : Collect.World) (e : String) (tcs : List TrustChain) (hs : st.fed.store = [])
    (ht : (getTrustChains { A.V with W := W } (after A st h).fed e).1 = .ok tcs) (tc : TrustChain) (htc : tc ∈ tcs) :
    (∃ tc0, (verifyChain A.V.L (getTrustChains { A.V with W := W } (after A st h).fed e).2.jar tc.chain).1 = .ok (some tc0) ∧ applyToChain A.V.E A.V.K tc0 = .ok tc) ∧
    (Leads A.V (worlds h W) st.fed e tc ∨ ∃ W' sent, (W', Event.request e sent) ∈ h ∧ sent ≠ [] ∧ tc.chain = sent.reverse) := by
  obtain ⟨ts, i, h1, h2, h3⟩ := resolve_turns A st h W e
  rw [ht] at h2
  have h4 := C213_sound A.V (worlds h W) (jobs h e) st.fed hs ts i tcs h2 tc htc
  rw [h1, h3] at h4
  obtain ⟨h5, h6⟩ := h4
  refine ⟨h5.accepted, h6.imp id ?_⟩
  rintro ⟨i, sent, g1, g2, g3⟩
  unfold jobs at g1
  cases hi : h[i]? with
  | none => rw [hi] at g1; cases g1
  | some x =>
    rw [hi] at g1
    obtain ⟨W', ev⟩ := x
    have hm := List.mem_of_getElem? hi
    cases ev with
    | resolve => cases g1
    | collect => cases g1
    | request client sent' => cases g1; exact ⟨W', sent, hm, g2, g3⟩

/-- C214 for trust marks, in full: a mark that is accepted after asking its issuer was confirmed at the endpoint that the issuer names, that is, in the metadata along a chain that leads
up from a configuration of the issuer. -/
def C214_mark_full : Prop :=
  ∀ (A : AutoEnv) (st : AppState) (h : List (Collect.World × Event)) (W : Collect.World) (T : TrustMarks.TmLib) (O : TrustMarks.StatusOracle) (t : TrustMarks.Tm) (iss : String)
    (p : TrustMarks.TmPayload), st.fed.store = [] → t.payload.iss = some iss → (TrustMarks.verifyTrustMark T { A.V with W := W } O (after A st h).fed (some t) true).1 = .ok (some p) →
    ∃ tc rest sub id, (getTrustChains { A.V with W := W } (after A st h).fed iss).1 = .ok (tc :: rest) ∧ Leads A.V (worlds h W) st.fed iss tc ∧
      p.sub = some sub ∧ p.id = some id ∧ TrustMarks.SaidActive O tc.metadata sub id

/-- It holds if no request brought a trust chain along in the name of the issuer. -/
theorem C214_mark_partial (A : AutoEnv) (st : AppState) (h : List (Collect.World × Event)) (W : Collect.World) (T : TrustMarks.TmLib) (O : TrustMarks.StatusOracle) (t : TrustMarks.Tm)
    (iss : String) (p : TrustMarks.TmPayload) (hs : st.fed.store = []) (hi : t.payload.iss = some iss) (hn : Unnamed h iss)
    (hv : (TrustMarks.verifyTrustMark T { A.V with W := W } O (after A st h).fed (some t) true).1 = .ok (some p)) :
    ∃ tc rest sub id, (getTrustChains { A.V with W := W } (after A st h).fed iss).1 = .ok (tc :: rest) ∧ Leads A.V (worlds h W) st.fed iss tc ∧
      p.sub = some sub ∧ p.id = some id ∧ TrustMarks.SaidActive O tc.metadata sub id := by
  obtain ⟨t', iss', tc, rest, h1, h2, h3, -, h5⟩ := TrustMarks.C82_returned_partial _ _ _ _ _ _ _ hv
  cases h1
  rw [hi] at h2
  cases h2
  obtain ⟨sub, id, h6, h7, h8⟩ := h5 rfl
  exact ⟨tc, rest, sub, id, h3, (C214_history_partial A st h W iss _ hs hn h3 tc (by simp)).1, h6, h7, h8⟩

/-! ### The other side -/

namespace Ex
open _root_.Fed.Chains.Ex (conf about fe L)
def status (ep : String) : Dict Policy.Metadata := [("federation_entity", [("federation_trust_mark_status_endpoint", .str ep)])]
def issuer : Jws := conf "https://im" (some ["https://ta"]) (status "status")
def other : Jws := conf "https://leaf" (some ["https://ta"]) (status "evil")
/-- A trust anchor with two entities below it: `im` issues trust marks, `leaf` is some other member. -/
def W : Collect.World where
  now := 5
  config
    | "https://ta" => .ok (some (conf "https://ta" none (fe true)))
    | "https://im" => .ok (some issuer)
    | "https://leaf" => .ok (some other)
    | _ => .error .missingPage
  fetch _ a e := .ok (some (about a e))
def A : AutoEnv := ⟨{ L := L, P := { anchors := ["https://ta"] }, W := W, fuel := 10, E := SetEnum.insertion, K := SetEnum.insertion }, some ["automatic"], fun S _ => (none, S)⟩
def st : AppState := ⟨{ jar := [("https://ta", [1])] }, { cdb := [] }⟩
/-- An authorization request in the name of the issuer, that brings the chain of `leaf` along. -/
def foreign : List (Collect.World × Event) := [(W, .request "https://im" [some other, some (about "https://ta" "https://leaf")])]
/-- The issuer has withdrawn the mark; whoever runs the other endpoint says otherwise. -/
def O : TrustMarks.StatusOracle := fun ep _ _ => .ok [("active", .bool (decide (ep = .str "evil")))]
def mark : TrustMarks.Tm := ⟨{ iss := some "https://im", sub := some "https://rp", id := some "tm", iat := some 1, exp := some 100 }, 2⟩
/-- Requests in the name of others, with chains or without, and of the issuer without. -/
def plain : List (Collect.World × Event) :=
  [(W, .request "https://leaf" [some other, some (about "https://ta" "https://leaf")]), (W, .request "https://rp" [some other, some (about "https://ta" "https://leaf")]), (W, .request "https://im" []), (W, .resolve "https://im")]

theorem last {tc : TrustChain} (h : Leads A.V (worlds foreign W) st.fed "https://im" tc) : tc.chain.getLast? = some (some issuer) := by
  obtain ⟨ec, p, h1, -, h3, -⟩ := h
  have hw : ∀ i, worlds foreign W i = W := by
    intro i
    match i with
    | 0 => rfl
    | _ + 1 => rfl
  have : ec = issuer := by
    rcases h1 with h1 | ⟨i, h1, -⟩
    · cases h1
    · rw [hw] at h1; cases h1; rfl
  rw [h3, this]
  simp
end Ex

/-- C214 does not hold: after a request in the name of `im` with the chain of `leaf`, the chain of `leaf` is taken for that of `im`. -/
theorem C214_violation : ¬ C214_full := by
  intro h
  have key : (getTrustChains { Ex.A.V with W := Ex.W } (after Ex.A Ex.st Ex.foreign).fed "https://im").1.toOption.map (fun l => l.map fun tc => tc.chain.getLast?) =
      some [some (some Ex.other)] := by decide +kernel
  have all := h Ex.A Ex.st Ex.foreign Ex.W "https://im"
  generalize (getTrustChains { Ex.A.V with W := Ex.W } (after Ex.A Ex.st Ex.foreign).fed "https://im").1 = r at key all
  cases r with
  | error e => cases key
  | ok tcs =>
    simp only [Except.toOption, Option.map_some, Option.some.injEq] at key
    cases tcs with
    | nil => cases key
    | cons tc rest =>
      have := Ex.last (all (tc :: rest) rfl rfl tc (by simp))
      simp only [List.map_cons, List.cons.injEq] at key
      rw [key.1] at this
      exact absurd this (by decide)

/-- Nor for trust marks: a mark that its issuer has withdrawn is accepted, on the word of `leaf`. -/
theorem C214_mark_violation : ¬ C214_mark_full := by
  intro h
  obtain ⟨tc, rest, -, -, h1, h2, -⟩ := h Ex.A Ex.st Ex.foreign Ex.W TrustMarks.Ex.T Ex.O Ex.mark "https://im" Ex.mark.payload rfl rfl (by decide +kernel)
  have key : (getTrustChains { Ex.A.V with W := Ex.W } (after Ex.A Ex.st Ex.foreign).fed "https://im").1.toOption.map (fun l => l.map fun tc => tc.chain.getLast?) =
      some [some (some Ex.other)] := by decide +kernel
  rw [h1] at key
  simp only [Except.toOption, Option.map_some, List.map_cons, Option.some.injEq, List.cons.injEq] at key
  rw [Ex.last h2] at key
  exact absurd key.1 (by decide)

/-- The mark is refused when no such request was made, also after requests in the names of others. -/
example : Unnamed Ex.plain "https://im" ∧ Ex.st.fed.store = [] ∧
    (getTrustChains { Ex.A.V with W := Ex.W } (after Ex.A Ex.st Ex.plain).fed "https://im").1.toOption.map (fun l => l.map fun tc => tc.chain.getLast?) = some [some (some Ex.issuer)] ∧
    (TrustMarks.verifyTrustMark TrustMarks.Ex.T { Ex.A.V with W := Ex.W } Ex.O (after Ex.A Ex.st Ex.plain).fed (some Ex.mark) true).1 = .ok none ∧
    (TrustMarks.verifyTrustMark TrustMarks.Ex.T { Ex.A.V with W := Ex.W } (fun _ _ _ => .ok [("active", .bool true)]) (after Ex.A Ex.st Ex.plain).fed (some Ex.mark) true).1 = .ok (some Ex.mark.payload) := by
  refine ⟨fun W sent h => ?_, rfl, by decide +kernel, by decide +kernel, by decide +kernel⟩
  simp only [Ex.plain, List.mem_cons, Prod.mk.injEq, Event.request.injEq, reduceCtorEq, and_false, List.not_mem_nil, or_false] at h
  rcases h with ⟨-, h, -⟩ | ⟨-, h, -⟩ | ⟨-, -, h⟩
  · exact absurd h (by decide)
  · exact absurd h (by decide)
  · exact h

end Fed.Registration.Named
