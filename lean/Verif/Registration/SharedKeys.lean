import Verif.Registration.Named
import Verif.Registration.Addresses
/-
What automatic registrations do to the keys that trust chains are verified with. A server that is a part of a combination and has no keys itself works with the key jar of the federation entity
(`Config.Parts.Parts.ofOthers`): `upstream_get('attribute', 'keyjar')` in /repo/src/fedservice/appserver/oidc/authorization.py 76, oauth2/authorization.py 73 and oauth2/pushed_authorization.py 65
then finds the one that trust anchors are looked up in.
-/
namespace Fed.Registration.SharedKeys
open Fed Fed.Verify Fed.Chains Fed.Chains.AtOnce Fed.Chains.AtOnce.Prog

/-- What happens to a server: it is asked for the trust chains of an entity, or a request arrives at one of its endpoints that names a client and may bring a trust chain along (leaf first). -/
inductive Event
  | resolve (e : String)
  | request (kind : Kind) (client : String) (sent : List Doc)

/-- What is left of it, as in `Named.happen`: `get_trust_chains` (/repo/src/fedservice/entity/__init__.py 268-277), `client_authentication` (/repo/src/fedservice/appserver/oidc/authorization.py 95-130,
oauth2/authorization.py 89-121, oauth2/pushed_authorization.py 83-114). -/
def happen (A : AutoEnv) (st : AppState) (x : Collect.World × Event) : AppState :=
  match x.2 with
  | .resolve e => { st with fed := (getTrustChains { A.V with W := x.1 } st.fed e).2 }
  | .request kind client sent => (clientAuthentication { A with V := { A.V with W := x.1 } } kind st client sent).2

/-- Keys put into a key jar (`KeyJar.add_url`, `import_jwks`, `add_symmetric` of cryptojwt, used in /repo/src/fedservice/appserver/__init__.py 49-53). `read`, left open: the keys that are found at an
address or in a JWKS. Simplification: what is at an address is read once. -/
def merge (read : KeySource → List Key) : KeyJar → List (String × List KeySource) → KeyJar
  | jar, [] => jar
  | jar, p :: ps => merge read (jar.set p.1 (jar.keysOf p.1 ++ p.2.flatMap read)) ps

/-- If there is but one key jar, what the server recorded for clients is in it. A request first verifies chains and then records keys (oidc/authorization.py 51-80), so that it is enough
to do this when the request is over. -/
def gather (read : KeySource → List Key) (st : AppState) : AppState :=
  ⟨{ st.fed with jar := merge read st.fed.jar st.srv.keys }, { st.srv with keys := [] }⟩

/-- One event, with one key jar or with two. -/
def step (A : AutoEnv) (read : KeySource → List Key) (shared : Bool) (st : AppState) (x : Collect.World × Event) : AppState :=
  if shared then gather read (happen A st x) else happen A st x

/-- One after the other. -/
def after (A : AutoEnv) (read : KeySource → List Key) (shared : Bool) (st : AppState) (h : List (Collect.World × Event)) : AppState := h.foldl (step A read shared) st

/-! ### What was there to be seen -/

/-- A world in which nothing is found. -/
def silent : Collect.World := ⟨0, fun _ => .error .missingPage, fun _ _ _ => .error .missingPage⟩

/-- The worlds of a history. -/
def worlds (h : List (Collect.World × Event)) (i : Nat) : Collect.World := ((h[i]?).map (·.1)).getD silent

/-- What an event asks for. -/
def Event.job : Event → Job
  | .resolve e => .chains e
  | .request .oidc client sent => .register client sent
  | .request _ client sent => if sent.isEmpty then .verified client "" else .given sent.reverse

/-- What a history asks for. -/
def jobs (h : List (Collect.World × Event)) (i : Nat) : Job := ((h[i]?).map (·.2.job)).getD (.given [])

/-- The documents the server saw: found, told, in its caches from the start, sent along. -/
def Saw (A : AutoEnv) (st : AppState) (h : List (Collect.World × Event)) : Jws → Prop := Seen A.V (worlds h) (jobs h) st.fed

/-- Every statement of the chain is signed with a key that goes back, through statements, to the keys that were there at the start. -/
def Rooted (A : AutoEnv) (st : AppState) (h : List (Collect.World × Event)) (chain : List Doc) (j : Jws) : Prop :=
  ∃ k, Backed A.V.L st.fed.jar (fun j => Saw A st h j ∨ some j ∈ chain) j.payload.iss k ∧ A.V.L.usable j k = true ∧ A.V.L.verifies j k = true

/-- C215 in full: after whatever requests, with one key jar or with two, a trust chain is accepted only if its signatures go back to the keys that were configured. -/
def C215_full : Prop :=
  ∀ (A : AutoEnv) (read : KeySource → List Key) (shared : Bool) (st : AppState) (h : List (Collect.World × Event)) (chain : List Doc) (tc : TrustChain), st.fed.store = [] → st.srv.keys = [] →
    (verifyChain A.V.L (after A read shared st h).fed.jar chain).1 = .ok (some tc) → ∀ j, some j ∈ chain → Rooted A st h chain j

/-! ### What a request leaves behind -/

theorem job_fed (A : AutoEnv) (kind : Kind) (st : AppState) (client : String) (sent : List Doc) :
    (clientAuthentication A kind st client sent).2.fed = st.fed ∨
    (clientAuthentication A kind st client sent).2.fed = (((Event.request kind client sent).job.prog A.V A.V.W).run st.fed).2 := by
  have auto : ∀ st : AppState, (doAutomatic A kind st client sent).2.fed = (((Event.request kind client sent).job.prog A.V A.V.W).run st.fed).2 := by
    intro st
    have other : kind ≠ .oidc → ((Event.request kind client sent).job.prog A.V A.V.W).run st.fed = registrationChains A st.fed client sent := by
      intro hk
      have hj : (Event.request kind client sent).job = if sent.isEmpty then .verified client "" else .given sent.reverse := by
        cases kind with
        | oidc => exact absurd rfl hk
        | _ => rfl
      rw [hj]
      unfold registrationChains
      split
      · exact getVerifiedP_run _ _ _ _
      · rw [Job.prog, givenChainsP, run_andThen, verifyChainsP_run]
        obtain ⟨r, jar⟩ := verifyChains A.V.L [sent.reverse] st.fed.jar
        cases r <;> rfl
    by_cases hk : kind = .oidc
    · subst hk
      show _ = ((registrationP A.V client sent).run st.fed).2
      rw [Named.registrationP_run, doAutomatic]
      obtain ⟨r, fed⟩ := registrationChains A st.fed client sent
      cases r with
      | error e => rfl
      | ok tcs =>
        cases tcs with
        | nil => rfl
        | cons tc tcs =>
          simp only [if_true]
          cases tc.metadata.get? Kind.oidc.leafType with
          | none => rfl
          | some v => cases v <;> rfl
    · rw [other hk, doAutomatic]
      obtain ⟨r, fed⟩ := registrationChains A st.fed client sent
      cases r with
      | error e => rfl
      | ok tcs =>
        cases tcs with
        | nil => rfl
        | cons tc tcs =>
          simp only [if_neg hk]
          cases tc.metadata.get? kind.leafType with
          | none => rfl
          | some v => cases v <;> rfl
  unfold clientAuthentication
  split
  · exact Or.inl rfl
  · cases automaticSupported kind A.supported with
    | error e => exact Or.inl rfl
    | ok b =>
      cases b with
      | false => exact Or.inl rfl
      | true =>
        right
        simp only
        have h := auto { st with srv := { st.srv with cdb := st.srv.cdb.filter fun p => p.1 ≠ client } }
        generalize doAutomatic A kind { st with srv := { st.srv with cdb := st.srv.cdb.filter fun p => p.1 ≠ client } } client sent = r at h ⊢
        obtain ⟨r, st1⟩ := r
        simp only at h
        rw [← h]
        cases r with
        | error e => rfl
        | ok o =>
          cases o with
          | none => rfl
          | some rid =>
            simp only
            obtain ⟨r, cdb⟩ := alsoKnownAs kind st1.srv.cdb client rid
            cases r <;> rfl

/-- What a request records about keys. -/
theorem request_keys (A : AutoEnv) (kind : Kind) (st : AppState) (client : String) (sent : List Doc) :
    (clientAuthentication A kind st client sent).2.srv.keys = st.srv.keys ∨
    ∃ md S, S.keys = st.srv.keys ∧ (clientAuthentication A kind st client sent).2.srv.keys = (A.register (importClientKeys md S client) (Dict.set md "client_id" (.str client))).2.keys := by
  have auto : ∀ st : AppState, (doAutomatic A kind st client sent).2.srv.keys = st.srv.keys ∨
      ∃ md, (doAutomatic A kind st client sent).2.srv.keys = (A.register (importClientKeys md st.srv client) (Dict.set md "client_id" (.str client))).2.keys := by
    intro st
    unfold doAutomatic
    obtain ⟨r, fed⟩ := registrationChains A st.fed client sent
    cases r with
    | error e => exact Or.inl rfl
    | ok tcs =>
      cases tcs with
      | nil => exact Or.inl rfl
      | cons tc tcs =>
        simp only
        cases tc.metadata.get? kind.leafType with
        | none => exact Or.inl rfl
        | some v =>
          cases v with
          | obj md => exact Or.inr ⟨md, rfl⟩
          | _ => exact Or.inl rfl
  unfold clientAuthentication
  split
  · exact Or.inl rfl
  · cases automaticSupported kind A.supported with
    | error e => exact Or.inl rfl
    | ok b =>
      cases b with
      | false => exact Or.inl rfl
      | true =>
        simp only
        have h := auto { st with srv := { st.srv with cdb := st.srv.cdb.filter fun p => p.1 ≠ client } }
        have goal : ∀ st1 : AppState, (doAutomatic A kind { st with srv := { st.srv with cdb := st.srv.cdb.filter fun p => p.1 ≠ client } } client sent).2.srv.keys = st1.srv.keys →
            st1.srv.keys = st.srv.keys ∨ ∃ md S, S.keys = st.srv.keys ∧ st1.srv.keys = (A.register (importClientKeys md S client) (Dict.set md "client_id" (.str client))).2.keys := by
          intro st1 h1
          rw [h1] at h
          rcases h with h | ⟨md, h⟩
          · exact Or.inl h
          · exact Or.inr ⟨md, { st.srv with cdb := st.srv.cdb.filter fun p => p.1 ≠ client }, rfl, h⟩
        clear h
        generalize doAutomatic A kind { st with srv := { st.srv with cdb := st.srv.cdb.filter fun p => p.1 ≠ client } } client sent = r at goal ⊢
        obtain ⟨r, st1⟩ := r
        cases r with
        | error e => exact goal st1 rfl
        | ok o =>
          cases o with
          | none => exact goal st1 rfl
          | some rid =>
            simp only
            obtain ⟨r, cdb⟩ := alsoKnownAs kind st1.srv.cdb client rid
            cases r <;> exact goal { st1 with srv := { st1.srv with cdb := cdb } } rfl

theorem mem_set_ne {α : Type} {k : String} {v : α} {p : String × α} : ∀ {d : Dict α}, p ∈ d.set k v → p.1 ≠ k → p ∈ d
  | [], h, hn => by
    simp only [Dict.set, List.mem_singleton] at h
    subst h
    exact absurd rfl hn
  | (q, w) :: d, h, hn => by
    simp only [Dict.set] at h
    split at h
    · rename_i hq
      rcases List.mem_cons.1 h with rfl | h
      · exact absurd hq hn
      · exact List.mem_cons_of_mem _ h
    · rcases List.mem_cons.1 h with rfl | h
      · exact List.mem_cons_self
      · exact List.mem_cons_of_mem _ (mem_set_ne h hn)

theorem importClientKeys_mem {md : Dict Val} {S : Server} {c : String} {p : String × List KeySource} (h : p ∈ (importClientKeys md S c).keys) (hn : p.1 ≠ c) : p ∈ S.keys := by
  unfold importClientKeys at h
  split at h
  · exact h
  · split at h
    · exact mem_set_ne h hn
    · split at h
      · exact mem_set_ne h hn
      · exact h

/-- The registration proper records no keys for `e` when it is about another client. -/
def Keeps (A : AutoEnv) (e : String) : Prop := ∀ S req, req.get? "client_id" ≠ some (.str e) → ∀ p ∈ (A.register S req).2.keys, p.1 = e → p ∈ S.keys

/-- Nobody made a request in the name of `e`, and the server does not itself give that name to a client. -/
def Spared (A : AutoEnv) (h : List (Collect.World × Event)) (e : String) : Prop :=
  Keeps A e ∧ ∀ W kind client sent, (W, Event.request kind client sent) ∈ h → client ≠ e

theorem happen_keys {A : AutoEnv} {h : List (Collect.World × Event)} {e : String} (hs : Spared A h e) {x : Collect.World × Event} (hx : x ∈ h) (st : AppState) {p : String × List KeySource}
    (hp : p ∈ (happen A st x).srv.keys) (he : p.1 = e) : p ∈ st.srv.keys := by
  obtain ⟨W, ev⟩ := x
  cases ev with
  | resolve e => exact hp
  | request kind client sent =>
    have hne := hs.2 W kind client sent hx
    rcases request_keys { A with V := { A.V with W := W } } kind st client sent with h1 | ⟨md, S, h1, h2⟩
    · simp only [happen] at hp; rwa [h1] at hp
    · simp only [happen] at hp
      rw [h2] at hp
      rw [← h1]
      refine importClientKeys_mem (hs.1 _ _ ?_ p hp he) (by rw [he]; exact Ne.symm hne)
      rw [Dict.get?_set_self]
      intro hh
      cases hh
      exact hne rfl

/-! ### The keys that come in by way of registrations -/

theorem merge_keys (read : KeySource → List Key) (e : String) (k : Key) : ∀ (l : List (String × List KeySource)) (jar : KeyJar),
    k ∈ (merge read jar l).keysOf e ↔ k ∈ jar.keysOf e ∨ ∃ p ∈ l, p.1 = e ∧ k ∈ p.2.flatMap read
  | [], jar => by simp [merge]
  | p :: l, jar => by
    rw [merge, merge_keys read e k l, keysOf_set]
    by_cases hp : p.1 = e
    · rw [if_pos hp]
      constructor
      · rintro (h | ⟨q, h1, h2⟩)
        · rw [hp] at h
          rcases List.mem_append.1 h with h | h
          · exact Or.inl h
          · exact Or.inr ⟨p, by simp, hp, h⟩
        · exact Or.inr ⟨q, by simp [h1], h2⟩
      · rintro (h | ⟨q, h1, h2, h3⟩)
        · exact Or.inl (List.mem_append.2 (Or.inl (by rw [hp]; exact h)))
        · rcases List.mem_cons.1 h1 with rfl | h1
          · exact Or.inl (List.mem_append.2 (Or.inr h3))
          · exact Or.inr ⟨q, h1, h2, h3⟩
    · rw [if_neg hp]
      constructor
      · rintro (h | ⟨q, h1, h2⟩)
        · exact Or.inl h
        · exact Or.inr ⟨q, by simp [h1], h2⟩
      · rintro (h | ⟨q, h1, h2, h3⟩)
        · exact Or.inl h
        · rcases List.mem_cons.1 h1 with rfl | h1
          · exact absurd h2 hp
          · exact Or.inr ⟨q, h1, h2, h3⟩

theorem has_set (jar : KeyJar) (q e : String) (ks : List Key) : Dict.has (jar.set q ks) e = true ↔ q = e ∨ Dict.has jar e = true := by
  have all : ∀ d : KeyJar, Dict.has d e = true ↔ Dict.get? d e ≠ none := by
    intro d
    rw [Dict.has_iff, Dict.mem_keys_iff_exists]
    cases Dict.get? d e <;> simp
  rw [all, all, Dict.get?_set]
  by_cases h : q = e
  · simp [h]
  · simp [h]

theorem merge_has (read : KeySource → List Key) (e : String) : ∀ (l : List (String × List KeySource)) (jar : KeyJar),
    Dict.has (merge read jar l) e = true ↔ Dict.has jar e = true ∨ ∃ p ∈ l, p.1 = e
  | [], jar => by simp [merge]
  | p :: l, jar => by
    rw [merge, merge_has read e l, has_set]
    simp only [List.mem_cons, exists_eq_or_imp]
    constructor
    · rintro ((h | h) | h)
      · exact Or.inr (Or.inl h)
      · exact Or.inl h
      · exact Or.inr (Or.inr h)
    · rintro (h | h | h)
      · exact Or.inl (Or.inr h)
      · exact Or.inl (Or.inl h)
      · exact Or.inr h

/-- All that is put into the key jar of the federation entity by way of registrations. -/
def imports (A : AutoEnv) (read : KeySource → List Key) : AppState → List (Collect.World × Event) → List (String × List KeySource)
  | _, [] => []
  | st, x :: h => (happen A st x).srv.keys ++ imports A read (gather read (happen A st x)) h

theorem imports_spared {A : AutoEnv} {h : List (Collect.World × Event)} {e : String} (hs : Spared A h e) (read : KeySource → List Key) : ∀ (h' : List (Collect.World × Event)) (st : AppState),
    (∀ x ∈ h', x ∈ h) → st.srv.keys = [] → ∀ p ∈ imports A read st h', p.1 ≠ e
  | [], _, _, _, _, hp => by cases hp
  | x :: h', st, hx, hk, p, hp => by
    rcases List.mem_append.1 hp with hp | hp
    · intro he
      have := happen_keys hs (hx x (by simp)) st hp he
      rw [hk] at this
      cases this
    · exact imports_spared hs read h' _ (fun y hy => hx y (by simp [hy])) rfl p hp

section
variable {A : AutoEnv} {read : KeySource → List Key} {st0 : AppState} {h : List (Collect.World × Event)} {jar0 : KeyJar}

/-- What holds at all times. -/
abbrev Good (A : AutoEnv) (st0 : AppState) (h : List (Collect.World × Event)) (jar0 : KeyJar) (st : AppState) : Prop :=
  Sane A.V jar0 (Found A.V.L.toCrypto (worlds h) st0.fed.coll) (Held A.V.L.toCrypto (worlds h) st0.fed.coll) (Saw A st0 h) (AtOnce.Named (jobs h)) st.fed

theorem safe_run {α : Type} {I : State → Prop} {Q : α → State → Prop} : ∀ {p : Prog α} {s : State}, I s → Safe I More Q p s → I (p.run s).2
  | .ret _, _, hi, _ => hi
  | .act _ k, s, hi, h => safe_run (p := k s) (h s (More.refl s) hi).1 (h s (More.refl s) hi).2.2

theorem happen_good {x : Collect.World × Event} (hx : x ∈ h) {st : AppState} (hg : Good A st0 h jar0 st) : Good A st0 h jar0 (happen A st x) := by
  obtain ⟨i, hi⟩ := List.mem_iff_getElem?.1 hx
  have hw : worlds h i = x.1 := by rw [worlds, hi]; rfl
  have hj : jobs h i = x.2.job := by rw [jobs, hi]; rfl
  have hd1 : ∀ a j, Found A.V.L.toCrypto (worlds h) st0.fed.coll a j → Saw A st0 h j := fun a j h => Or.inl ⟨a, h⟩
  have hd2 : ∀ k j, Held A.V.L.toCrypto (worlds h) st0.fed.coll k j → Saw A st0 h j := fun k j h => Or.inr (Or.inl ⟨k, h⟩)
  have hR := reports (V := A.V) (world := worlds h) (s0 := st0.fed) i
  rw [hw] at hR
  have run : Sane A.V jar0 (Found A.V.L.toCrypto (worlds h) st0.fed.coll) (Held A.V.L.toCrypto (worlds h) st0.fed.coll) (Saw A st0 h) (AtOnce.Named (jobs h)) ((x.2.job.prog A.V x.1).run st.fed).2 := by
    cases hq : x.2.job with
    | chains e => exact safe_run hg (getTrustChains_sound hR hd1 hd2 e st.fed)
    | verified e stopAt => exact safe_run hg (getVerified_sound hR hd1 hd2 e stopAt st.fed hg)
    | given chain => exact safe_run hg (givenChains_sound (fun j h => Or.inr (Or.inr ⟨i, chain, Or.inl (by rw [hj, hq]), h⟩)) st.fed hg)
    | register client sent =>
      exact safe_run hg (registration_sound hR hd1 hd2 (fun j h => Or.inr (Or.inr ⟨i, sent, Or.inr ⟨client, by rw [hj, hq]⟩, h⟩)) (fun h => ⟨i, sent, by rw [hj, hq], h, rfl⟩) st.fed hg)
  obtain ⟨W, ev⟩ := x
  cases ev with
  | resolve e =>
    simp only [Event.job, Job.prog, getTrustChainsP_run] at run
    exact run
  | request kind client sent =>
    have same : (Event.request kind client sent).job.prog { A.V with W := W } W = (Event.request kind client sent).job.prog A.V W := by
      cases (Event.request kind client sent).job <;> rfl
    rcases job_fed { A with V := { A.V with W := W } } kind st client sent with h1 | h1
    · have h2 : (happen A st (W, .request kind client sent)).fed = st.fed := h1
      unfold Good
      rw [h2]
      exact hg
    · have h2 : (happen A st (W, .request kind client sent)).fed = (((Event.request kind client sent).job.prog A.V W).run st.fed).2 := by rw [← same]; exact h1
      unfold Good
      rw [h2]
      exact run

theorem gather_good {st : AppState} (hg : Good A st0 h jar0 st) (hk : ∀ p ∈ st.srv.keys, ∀ k ∈ p.2.flatMap read, k ∈ jar0.keysOf p.1) (hh : ∀ p ∈ st.srv.keys, Dict.has jar0 p.1 = true) : Good A st0 h jar0 (gather read st) where
  config := hg.config
  es := hg.es
  keys e k hke := by
    rcases (merge_keys read e k _ _).1 hke with h | ⟨p, h1, rfl, h3⟩
    · exact hg.keys e k h
    · exact .start (hk p h1 k h3)
  entities e he := by
    rcases (merge_has read e _ _).1 he with h | ⟨p, h1, rfl⟩
    · exact hg.entities e h
    · exact Or.inl (hh p h1)
  store e tcs hs tc htc :=
    (hg.store e tcs hs tc htc).mono ⟨fun e k h => (merge_keys read e k _ _).2 (Or.inl h), fun e h => (merge_has read e _ _).2 (Or.inl h)⟩

theorem after_good_shared : ∀ (h' : List (Collect.World × Event)) (st : AppState), (∀ x ∈ h', x ∈ h) → Good A st0 h jar0 st →
    (∀ p ∈ imports A read st h', (∀ k ∈ p.2.flatMap read, k ∈ jar0.keysOf p.1) ∧ Dict.has jar0 p.1 = true) → Good A st0 h jar0 (after A read true st h')
  | [], _, _, hg, _ => hg
  | x :: h', st, hx, hg, hi => by
    show Sane _ _ _ _ _ _ (after A read true (step A read true st x) h').fed
    have hs : step A read true st x = gather read (happen A st x) := rfl
    rw [hs]
    exact after_good_shared h' _ (fun y hy => hx y (by simp [hy]))
      (gather_good (happen_good (hx x (by simp)) hg) (fun p hp => (hi p (List.mem_append.2 (Or.inl hp))).1) (fun p hp => (hi p (List.mem_append.2 (Or.inl hp))).2))
      (fun p hp => hi p (List.mem_append.2 (Or.inr hp)))

theorem after_good_separate : ∀ (h' : List (Collect.World × Event)) (st : AppState), (∀ x ∈ h', x ∈ h) → Good A st0 h jar0 st → Good A st0 h jar0 (after A read false st h')
  | [], _, _, hg => hg
  | x :: h', st, hx, hg => after_good_separate h' _ (fun y hy => hx y (by simp [hy])) (happen_good (hx x (by simp)) hg)

end

/-- Going through a chain, from the keys there are. -/
theorem chain_rooted {L : Lib} {jar jar0 : KeyJar} {doc : Jws → Prop} {chain : List Doc} {tc : TrustChain} (hk : ∀ e k, k ∈ jar.keysOf e → Backed L jar0 doc e k)
    (hd : ∀ j, some j ∈ chain → doc j) (hv : (verifyChain L jar chain).1 = .ok (some tc)) (j : Jws) (hj : some j ∈ chain) :
    ∃ k, Backed L jar0 doc j.payload.iss k ∧ L.usable j k = true ∧ L.verifies j k = true := by
  have mem : ∀ j, j ∈ statements chain ↔ some j ∈ chain := by intro j; simp [statements]
  have key : ∀ n (l : List Jws) (j : Jws) (r : List Jws), l.length = n → statements chain = l ++ j :: r →
      ∃ k, Backed L jar0 doc j.payload.iss k ∧ L.usable j k = true ∧ L.verifies j k = true := by
    intro n
    induction n using Nat.strongRecOn with
    | _ n ih =>
      intro l j r hl hs
      obtain ⟨k, hu, hve, hk' | ⟨j', hj'm, hsub, ks, hks, hkk⟩⟩ := C37_keys_from_above _ _ _ _ hv l j r hs
      · exact ⟨k, hk _ _ hk', hu, hve⟩
      · obtain ⟨l1, l2, rfl⟩ := List.append_of_mem hj'm
        obtain ⟨k', hk', hu', hv'⟩ := ih l1.length (by rw [← hl]; simp) l1 j' (l2 ++ j :: r) rfl (by rw [hs]; simp)
        refine ⟨k, ?_, hu, hve⟩
        rw [← hsub]
        exact .declared (hd j' ((mem j').1 (by rw [hs]; simp))) hk' hu' hv' hks hkk
  obtain ⟨l, r, hs⟩ := List.append_of_mem ((mem j).2 hj)
  exact key _ l j r rfl hs

theorem _root_.Fed.Chains.AtOnce.Backed.imp {L : Lib} {jar : KeyJar} {doc doc' : Jws → Prop} (h : ∀ j, doc j → doc' j) {e : String} {k : Key} (hb : Backed L jar doc e k) : Backed L jar doc' e k := by
  induction hb with
  | start h1 => exact .start h1
  | declared h1 _ h3 h4 h5 h6 ih => exact .declared (h _ h1) ih h3 h4 h5 h6

/-- C215 for servers with keys of their own: whatever requests were made at whichever endpoint and in whosever name, chains are accepted on the ground of the configured keys only. -/
theorem C215_separate_partial (A : AutoEnv) (read : KeySource → List Key) (st : AppState) (h : List (Collect.World × Event)) (chain : List Doc) (tc : TrustChain) (hs : st.fed.store = [])
    (hv : (verifyChain A.V.L (after A read false st h).fed.jar chain).1 = .ok (some tc)) (j : Jws) (hj : some j ∈ chain) : Rooted A st h chain j := by
  have good := after_good_separate (A := A) (read := read) (st0 := st) (h := h) (jar0 := st.fed.jar) h st (fun _ h => h) (.start hs)
  exact chain_rooted (fun e k hk => (good.keys e k hk).imp fun _ h => Or.inl h) (fun j h => Or.inr h) hv j hj

/-- Clients are leaves: an entity in whose name a request was made issues, in what the server saw and in the chain, no statements about others. -/
def Leaves (A : AutoEnv) (st : AppState) (h : List (Collect.World × Event)) (chain : List Doc) : Prop :=
  ∀ j, Saw A st h j ∨ some j ∈ chain → ¬ Spared A h j.payload.iss → j.payload.sub = j.payload.iss

/-- C215 for a server that works with the key jar of the federation entity, as far as it holds: if no request is made in the name of an entity that issues statements about others, statements of
all the others are accepted on the ground of the configured keys only. Missing: that nobody can make such a request. -/
theorem C215_shared_partial (A : AutoEnv) (read : KeySource → List Key) (st : AppState) (h : List (Collect.World × Event)) (chain : List Doc) (tc : TrustChain) (hs : st.fed.store = [])
    (hk : st.srv.keys = []) (hl : Leaves A st h chain) (hv : (verifyChain A.V.L (after A read true st h).fed.jar chain).1 = .ok (some tc)) (j : Jws) (hj : some j ∈ chain)
    (hsp : Spared A h j.payload.iss) : Rooted A st h chain j := by
  have start : Sane A.V (merge read st.fed.jar (imports A read st h)) (Found A.V.L.toCrypto (worlds h) st.fed.coll) (Held A.V.L.toCrypto (worlds h) st.fed.coll) (Saw A st h)
      (AtOnce.Named (jobs h)) st.fed := by
    refine ⟨fun e c h => Or.inl h, fun k j h => Or.inl h, fun e k h => .start ((merge_keys read e k _ _).2 (Or.inl h)), fun e h => Or.inl ((merge_has read e _ _).2 (Or.inl h)), ?_⟩
    intro e tcs h
    rw [hs] at h
    cases h
  have good := after_good_shared (A := A) (read := read) (st0 := st) (h := h) (jar0 := merge read st.fed.jar (imports A read st h)) h st (fun _ h => h) start
    (fun p hp => ⟨fun k hk => (merge_keys read _ k _ _).2 (Or.inr ⟨p, hp, rfl, hk⟩), (merge_has read _ _ _).2 (Or.inr ⟨p, hp, rfl⟩)⟩)
  have back : ∀ e k, Backed A.V.L (merge read st.fed.jar (imports A read st h)) (fun j => Saw A st h j ∨ some j ∈ chain) e k → Spared A h e →
      Backed A.V.L st.fed.jar (fun j => Saw A st h j ∨ some j ∈ chain) e k := by
    intro e k hb
    induction hb with
    | start h1 =>
      intro hsp
      rcases (merge_keys read _ _ _ _).1 h1 with h1 | ⟨p, hp, he, -⟩
      · exact .start h1
      · exact absurd he (imports_spared hsp read h st (fun _ h => h) hk p hp)
    | @declared j k' ks k h1 _ h3 h4 h5 h6 ih =>
      intro hsp
      by_cases hi : Spared A h j.payload.iss
      · exact .declared h1 (ih hi) h3 h4 h5 h6
      · rw [hl j h1 hi] at hsp
        exact absurd hsp hi
  obtain ⟨k, h1, h2, h3⟩ := chain_rooted (fun e k hk => (good.keys e k hk).imp fun _ h => Or.inl h) (fun j h => Or.inr h) hv j hj
  exact ⟨k, back _ _ h1 hsp, h2, h3⟩

/-- The registration of the oauth2 endpoints leaves the keys of others alone, if the id generator does not make up their names. -/
theorem setup_keeps (V : Chains.Env) (supported : Option (List String)) (R : RegEnv) (newId : Bool) (e : String) (hg : ∀ l, R.genId l ≠ e) (hf : newId = false → ∀ req req0 : Dict Val,
    filterRequest R.A R.E (req.filter fun p => decide (p.2 ≠ .str "")) = .ok req0 → req0.get? "client_id" = some (.str e) → req.get? "client_id" = some (.str e)) :
    Keeps ⟨V, supported, setupRegister R newId⟩ e := by
  intro S req hreq p hp he
  have hS : (setupRegister R newId S req).2 = (setup R S req newId true []).2 := by
    unfold setupRegister
    obtain ⟨r, S1⟩ := setup R S req newId true []
    cases r with
    | error e => rfl
    | ok x =>
      obtain ⟨c, resp⟩ := x
      simp only
      split <;> rfl
  have hne : ∀ req0 req1 client, filterRequest R.A R.E (req.filter fun p => decide (p.2 ≠ .str "")) = .ok req0 → chooseId R S.cdb newId [] req0 = .ok (client, req1) → p.1 ≠ client := by
    intro req0 req1 client h0 hc hpc
    rw [he] at hpc
    subst hpc
    unfold chooseId at hc
    cases newId with
    | true =>
      simp only [if_true, Except.ok.injEq, Prod.mk.injEq] at hc
      exact hg _ hc.1
    | false =>
      simp only [Bool.false_eq_true, if_false] at hc
      split at hc
      · rename_i c h1
        split at hc
        · cases hc
        · cases hc
          exact hreq (hf rfl req req0 h0 h1)
      · cases hc
  simp only at hp
  rw [hS] at hp
  have hr := setup_run R S req newId true []
  generalize setup R S req newId true [] = r at hp hr
  cases hr with
  | early e => exact hp
  | refused => exact hp
  | noResponse req0 req1 cinfo client h1 h2 =>
    exact importClientKeys_mem (S := { S with cdb := S.cdb.set client (skeleton R newId true client) }) hp (hne _ _ _ h1 h2)
  | done req0 req1 cinfo client h0 h1 h2 =>
    simp only at hp
    split at hp
    · exact importClientKeys_mem (S := { S with cdb := S.cdb.set client (skeleton R newId true client) }) (mem_set_ne hp (hne _ _ _ h1 h2)) (hne _ _ _ h1 h2)
    · exact importClientKeys_mem (S := { S with cdb := S.cdb.set client (skeleton R newId true client) }) hp (hne _ _ _ h1 h2)

/-! ### The other side -/

namespace Ex
open _root_.Fed.Chains.Ex (conf about fe L keyOf)
/-- A relying party below the trust anchor; 66 is the key it signs its requests with. -/
def rp : Jws := conf "https://leaf" (some ["https://ta"]) [("openid_relying_party", [("jwks", .int 66)])]
def W : Collect.World where
  now := 5
  config
    | "https://ta" => .ok (some (conf "https://ta" none (fe true)))
    | "https://leaf" => .ok (some rp)
    | _ => .error .missingPage
  fetch _ a e := if a = "https://ta" then .ok (some (about a e)) else .error .missingPage
def A : AutoEnv := ⟨{ L := L, P := { anchors := ["https://ta"] }, W := W, fuel := 10, E := SetEnum.insertion, K := SetEnum.insertion }, some ["automatic"], fun S _ => (none, S)⟩
def st : AppState := ⟨{ jar := [("https://ta", [1])] }, {}⟩
def read : KeySource → List Key
  | .jwks (.int n) => [n.toNat]
  | _ => []
/-- The relying party makes an authorization request in the name of the trust anchor, with its own trust chain. -/
def attack : List (Collect.World × Event) := [(W, .request .oidc "https://ta" [some rp, some (about "https://ta" "https://leaf")])]
/-- And is the trust anchor from then on. -/
def forged : List Doc :=
  [some ⟨{ iss := "https://ta", sub := "https://made.up", exp := some 10000, jwks := some [66] }, 66⟩,
   some ⟨{ iss := "https://made.up", sub := "https://made.up", exp := some 10000, jwks := some [66], metadata := some (Chains.Ex.rp (.str "all")) }, 66⟩]
/-- Requests in the name of the relying party. -/
def usual : List (Collect.World × Event) := [(W, .request .oidc "https://leaf" [some rp, some (about "https://ta" "https://leaf")]), (W, .request .oidc "https://leaf" []), (W, .resolve "https://leaf")]
def chain : List Doc := [some (about "https://ta" "https://leaf"), some rp]

theorem keyOf_ne (e : String) : keyOf e ≠ 66 := by
  unfold keyOf
  split <;> decide

theorem worlds_ok (h : List (Collect.World × Event)) (hh : ∀ x ∈ h, x.1 = W) (i : Nat) : worlds h i = W ∨ worlds h i = silent := by
  unfold worlds
  cases hi : h[i]? with
  | none => exact Or.inr rfl
  | some x => exact Or.inl (hh x (List.mem_of_getElem? hi))

/-- What there is to be seen: configurations and statements of `ta` and `leaf`. -/
theorem saw (h : List (Collect.World × Event)) (hh : ∀ x ∈ h, x.1 = W) (hs : ∀ i c, (jobs h i = .given c ∨ ∃ client, jobs h i = .register client c) → ∀ j, some j ∈ c → j = rp ∨ ∃ e, j = about "https://ta" e) (j : Jws)
    (hj : Saw A st h j) : j = rp ∨ j = conf "https://ta" none (fe true) ∨ ∃ e, j = about "https://ta" e := by
  rcases hj with ⟨a, h1 | ⟨i, h1, -⟩⟩ | ⟨k, h1 | ⟨a, e, _, i, _, _, _, _, _, _, h1⟩⟩ | ⟨i, c, h1, h2⟩
  · cases h1
  · rcases worlds_ok h hh i with hw | hw
    · rw [hw] at h1
      simp only [W] at h1
      split at h1
      · cases h1; exact Or.inr (Or.inl rfl)
      · cases h1; exact Or.inl rfl
      · cases h1
    · rw [hw] at h1; cases h1
  · cases h1
  · rcases worlds_ok h hh i with hw | hw
    · rw [hw] at h1
      simp only [W] at h1
      split at h1
      · rename_i ha
        subst ha
        cases h1
        exact Or.inr (Or.inr ⟨e, rfl⟩)
      · cases h1
    · rw [hw] at h1; cases h1
  · rcases hs i c h1 j h2 with h | h
    · exact Or.inl h
    · exact Or.inr (Or.inr h)

theorem attack_jobs (i : Nat) (c : List Doc) (h : jobs attack i = .given c ∨ ∃ client, jobs attack i = .register client c) (j : Jws) (hj : some j ∈ c) : j = rp ∨ ∃ e, j = about "https://ta" e := by
  match i with
  | 0 =>
    rcases h with h | ⟨client, h⟩
    · cases h
    · cases h
      simp only [List.mem_cons, Option.some.injEq, List.not_mem_nil, or_false] at hj
      exact hj.imp id fun h => ⟨_, h⟩
  | n + 1 =>
    rcases h with h | ⟨client, h⟩
    · cases h; cases hj
    · cases h

theorem jwks_ne {j : Jws} (h : j = rp ∨ j = conf "https://ta" none (fe true) ∨ ∃ e, j = about "https://ta" e) {ks : List Key} (hk : j.payload.jwks = some ks) : 66 ∉ ks := by
  rcases h with rfl | rfl | ⟨e, rfl⟩ <;> cases hk <;> rw [List.mem_singleton] <;> exact fun h => keyOf_ne _ h.symm

theorem not_backed {e : String} {k : Key} (hb : Backed L [("https://ta", [1])] (fun j => Saw A st attack j ∨ some j ∈ forged) e k) : k ≠ 66 := by
  induction hb with
  | @start e k h1 =>
    intro hk
    subst hk
    unfold KeyJar.keysOf at h1
    rw [Dict.get?_cons] at h1
    split at h1
    · exact absurd h1 (by decide)
    · exact absurd h1 (by simp)
  | @declared j k' ks k h1 _ _ h4 h5 h6 ih =>
    have hsig : j.sig = k' := by simpa [L] using h4
    rcases h1 with h1 | h1
    · intro hk
      subst hk
      exact jwks_ne (saw attack (by simp [attack]) attack_jobs j h1) h5 h6
    · simp only [forged, List.mem_cons, Option.some.injEq, List.not_mem_nil, or_false] at h1
      rcases h1 with rfl | rfl <;> exact absurd hsig.symm ih
end Ex

/-- C215 does not hold: with one key jar, any relying party of the federation can make itself the trust anchor by one authorization request, and what it states then is accepted. -/
theorem C215_violation : ¬ C215_full := by
  intro h
  have key : ((verifyChain Ex.A.V.L (after Ex.A Ex.read true Ex.st Ex.attack).fed.jar Ex.forged).1.toOption.bind id).isSome = true := by decide +kernel
  generalize hr : (verifyChain Ex.A.V.L (after Ex.A Ex.read true Ex.st Ex.attack).fed.jar Ex.forged).1 = r at key
  rcases r with _ | _ | tc
  · cases key
  · cases key
  obtain ⟨k, h1, -, h3⟩ := h Ex.A Ex.read true Ex.st Ex.attack Ex.forged tc rfl rfl hr _ List.mem_cons_self
  refine Ex.not_backed h1 ?_
  have : (66 : Nat) = k := by simpa [Ex.A, Chains.Ex.L] using h3
  exact this.symm

/-- With two key jars, and with one after the usual requests, it is refused. -/
example : (verifyChain Ex.A.V.L (after Ex.A Ex.read false Ex.st Ex.attack).fed.jar Ex.forged).1 = .error .badSignature ∧
    (verifyChain Ex.A.V.L (after Ex.A Ex.read true Ex.st Ex.usual).fed.jar Ex.forged).1 = .error .badSignature := by
  constructor <;> decide +kernel

/-- The usual requests meet the conditions of `C215_shared_partial`. -/
example : Ex.st.fed.store = [] ∧ Ex.st.srv.keys = [] ∧ Leaves Ex.A Ex.st Ex.usual Ex.chain ∧ Spared Ex.A Ex.usual "https://ta" ∧
    ((verifyChain Ex.A.V.L (after Ex.A Ex.read true Ex.st Ex.usual).fed.jar Ex.chain).1.toOption.bind id).isSome = true := by
  have named : ∀ e, e ≠ "https://leaf" → Spared Ex.A Ex.usual e := by
    intro e he
    refine ⟨fun S req _ p hp _ => hp, fun W kind client sent hm hc => ?_⟩
    simp only [Ex.usual, List.mem_cons, Prod.mk.injEq, Event.request.injEq, reduceCtorEq, and_false, List.not_mem_nil, or_false] at hm
    rcases hm with ⟨-, -, h, -⟩ | ⟨-, -, h, -⟩ <;> exact he (by rw [← hc, h])
  have sent : ∀ i c, (jobs Ex.usual i = .given c ∨ ∃ client, jobs Ex.usual i = .register client c) → ∀ j, some j ∈ c → j = Ex.rp ∨ j = Chains.Ex.about "https://ta" "https://leaf" := by
    intro i c h j hj
    match i with
    | 0 =>
      rcases h with h | ⟨client, h⟩
      · cases h
      · cases h
        simpa using hj
    | 1 =>
      rcases h with h | ⟨client, h⟩
      · cases h
      · cases h; cases hj
    | 2 =>
      rcases h with h | ⟨client, h⟩
      · cases h
      · cases h
    | n + 3 =>
      rcases h with h | ⟨client, h⟩
      · cases h; cases hj
      · cases h
  refine ⟨rfl, rfl, fun j hj hn => ?_, named _ (by decide), by decide +kernel⟩
  have hl : j.payload.iss = "https://leaf" := Classical.byContradiction fun h => hn (named _ h)
  rcases hj with hj | hj
  · rcases Ex.saw Ex.usual (by simp [Ex.usual]) (fun i c h j hj => (sent i c h j hj).imp id fun h => ⟨_, h⟩) j hj with rfl | rfl | ⟨e, rfl⟩
    · rfl
    · exact absurd hl (by decide)
    · exact absurd (show "https://ta" = "https://leaf" from hl) (by decide)
  · simp only [Ex.chain, List.mem_cons, Option.some.injEq, List.not_mem_nil, or_false] at hj
    rcases hj with rfl | rfl
    · exact absurd hl (by decide)
    · rfl

end Fed.Registration.SharedKeys
