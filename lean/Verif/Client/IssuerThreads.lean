import Verif.Client.MarkEndpoint
/-
C203: several requests to other entities at the same time. `do_request` of the federation client (/repo/src/fedservice/entity/client/__init__.py 285-311) writes down whom the
request is for in the client's context (296), which all threads share, and the service that asks for trust marks reads it there, up to three times
(/repo/src/fedservice/entity/client/trust_mark.py 59-71). Here these functions are cut up into their accesses to what is shared: that entry, and the trust chains that are kept.
-/
namespace Fed.Chains.IssuerThreads
open Fed Fed.Verify Fed.Chains

/-- What a thread does: ask for a trust mark (`do_request("trust_mark", …)`); another `do_request`; ask for the trust chains of an entity (`get_trust_chains`, as the who endpoint
and `verify_trust_mark` do: /repo/src/fedservice/entity/server/who.py 80, /repo/src/fedservice/entity/__init__.py 363). -/
inductive Kind
  | mark
  | other
  | get
deriving DecidableEq

/-- How far it has come: about to write down whom it is for (client/__init__.py 296); about to read that for the first time (trust_mark.py 61); about to look for trust chains that are
kept (entity/__init__.py 269); about to collect and verify trust chains (271); about to keep them (273); about to read for the second time (trust_mark.py 65); about to collect again (65); about to
read for the third time (67); about to keep what was collected (67); done, with trust chains. -/
inductive Pc
  | begin
  | first
  | look (e : String)
  | ask (e : String)
  | keep (e : String) (tcs : List TrustChain)
  | second
  | askAgain (e : String)
  | third (tcs : List TrustChain)
  | put (e : String) (tcs : List TrustChain)
  | done (r : Except PyErr (List TrustChain))
deriving DecidableEq

/-- A thread's work: what it does, for which entity, and how far it has come. -/
structure Call where
  kind : Kind
  entity : String
  pc : Pc

/-- What the threads share: `client.context.issuer`, and the trust chains that are kept (`FederationEntity.trust_chain`). Simplification: a `do_request` without an entity
writes None, for which an identifier that no entity has can be taken. -/
structure Shared where
  issuer : String
  store : Dict (List TrustChain)

/-- One access: the thread that gets its turn, and what `get_verified_trust_chains` gives, at that time, for each entity. Simplification: collecting and verifying is one step (C194 and C201 are about threads
that collect at the same time). -/
structure Turn where
  who : Nat
  answer : String → Except PyErr (List TrustChain)

/-- With the trust chains `get_trust_chains` gives (trust_mark.py 62-65). -/
def got (k : Kind) : List TrustChain → Pc
  | [] => if k = .mark then .second else .done (.ok [])
  | tc :: tcs => .done (.ok (tc :: tcs))

/-- With what was collected (entity/__init__.py 271-275). -/
def asked (k : Kind) (e : String) : Except PyErr (List TrustChain) → Pc
  | .error x => .done (.error x)
  | .ok [] => got k []
  | .ok (tc :: tcs) => .keep e (tc :: tcs)

/-- With what was collected the second time (trust_mark.py 65-69). -/
def askedAgain : Except PyErr (List TrustChain) → Pc
  | .error x => .done (.error x)
  | .ok [] => .done (.ok [])
  | .ok (tc :: tcs) => .third (tc :: tcs)

/-- With what is kept (entity/__init__.py 269-270). -/
def looked (k : Kind) (e : String) : Option (List TrustChain) → Pc
  | none => .ask e
  | some tcs => got k tcs

/-- One access (client/__init__.py 296, trust_mark.py 59-71, entity/__init__.py 268-283). -/
def access (k : Kind) (entity : String) (t : Turn) (sh : Shared) : Pc → Pc × Shared
  | .begin => (if k = .mark then .first else .done (.ok []), { sh with issuer := entity })
  | .first => (.look sh.issuer, sh)
  | .look e => (looked k e (sh.store.get? e), sh)
  | .ask e => (asked k e (t.answer e), sh)
  | .keep e tcs => (.done (.ok tcs), { sh with store := sh.store.set e tcs })
  | .second => (.askAgain sh.issuer, sh)
  | .askAgain e => (askedAgain (t.answer e), sh)
  | .third tcs => (.put sh.issuer tcs, sh)
  | .put e tcs => (.done (.ok tcs), { sh with store := sh.store.set e tcs })
  | .done r => (.done r, sh)

/-- The process: what is shared, and the threads. There is no bound on how many there are; one that gets no turn has not begun. -/
structure Sys where
  sh : Shared
  calls : Nat → Call

/-- One turn. -/
def turn (s : Sys) (t : Turn) : Sys :=
  let c := s.calls t.who
  let r := access c.kind c.entity t s.sh c.pc
  { sh := r.2, calls := fun i => if i = t.who then { c with pc := r.1 } else s.calls i }

/-- All the turns of a schedule. -/
def run (s : Sys) (ts : List Turn) : Sys := ts.foldl turn s

/-- Where the request for a trust mark is sent, with the trust chains (trust_mark.py 69-71). -/
def url : Except PyErr (List TrustChain) → Except PyErr Val
  | .error x => .error x
  | .ok [] => .ok (.str "")
  | .ok (tc :: _) => member2 tc.metadata "federation_entity" "federation_trust_mark_endpoint"

/-! ### The steps together are the function of the sequential model -/

/-- What collecting gives a thread: `a1` the first time, `a2` the second time. -/
def answerOf (a1 a2 : Except PyErr (List TrustChain)) : Pc → Except PyErr (List TrustChain)
  | .askAgain _ => a2
  | _ => a1

/-- The steps of a request that nobody interrupts. -/
def alone (k : Kind) (entity : String) (a1 a2 : Except PyErr (List TrustChain)) : Nat → Pc × Shared → Pc × Shared
  | 0, r => r
  | n + 1, r => alone k entity a1 a2 n (access k entity ⟨0, fun _ => answerOf a1 a2 r.1⟩ r.2 r.1)

theorem alone_done (k : Kind) (c : String) (a1 a2 r : Except PyErr (List TrustChain)) : ∀ (n : Nat) (sh : Shared), alone k c a1 a2 n (.done r, sh) = (.done r, sh)
  | 0, _ => rfl
  | n + 1, sh => alone_done k c a1 a2 r n sh

/-- The second half of `TrustMark.get_endpoint` (trust_mark.py 65-71). -/
def endpointAgain (V : Env) (st : State) (issuer : String) : Except PyErr Val × State :=
  match getVerified V st issuer with
  | (.error e, st) => (.error e, st)
  | (.ok [], st) => (.ok (.str ""), st)
  | (.ok (tc :: tcs), st) => (member2 tc.metadata "federation_entity" "federation_trust_mark_endpoint", { st with store := st.store.set issuer (tc :: tcs) })

theorem alone_again (V : Env) (st : State) (e : String) (a1 : Except PyErr (List TrustChain)) (n : Nat) :
    ∃ r, alone .mark e a1 (getVerified V st e).1 (n + 4) (.second, ⟨e, st.store⟩) = (.done r, ⟨e, (endpointAgain V st e).2.store⟩) ∧ url r = (endpointAgain V st e).1 := by
  have hs := getVerified_store (V := V) (st := st) (entity := e) (stopAt := "")
  show ∃ r, alone .mark e a1 (getVerified V st e).1 (n + 2) (askedAgain (getVerified V st e).1, ⟨e, st.store⟩) = _ ∧ _
  unfold endpointAgain
  generalize getVerified V st e = g at hs ⊢
  obtain ⟨g, st2⟩ := g
  simp only at hs
  match g with
  | .error x => exact ⟨.error x, by simp only [askedAgain]; rw [alone_done, hs], rfl⟩
  | .ok [] => exact ⟨.ok [], by simp only [askedAgain]; rw [alone_done, hs], rfl⟩
  | .ok (tc :: tcs) =>
    refine ⟨.ok (tc :: tcs), ?_, rfl⟩
    show alone .mark e a1 _ n (.done (.ok (tc :: tcs)), ⟨e, st.store.set e (tc :: tcs)⟩) = _
    rw [alone_done, ← hs]

/-- A request for a trust mark that nobody interrupts goes where it goes in the sequential model, and leaves the same trust chains behind. -/
theorem alone_eq (V : Env) (st : State) (e before : String) :
    ∃ r, alone .mark e (getVerified V st e).1 (getVerified V (getTrustChains V st e).2 e).1 8 (.begin, ⟨before, st.store⟩) = (.done r, ⟨e, (trustMarkEndpoint V st e).2.store⟩) ∧
      url r = (trustMarkEndpoint V st e).1 := by
  show ∃ r, alone .mark e _ _ 5 (looked .mark e (st.store.get? e), ⟨e, st.store⟩) = _ ∧ _
  have ht : trustMarkEndpoint V st e = match getTrustChains V st e with
      | (.error x, st) => (.error x, st)
      | (.ok (tc :: _), st) => (member2 tc.metadata "federation_entity" "federation_trust_mark_endpoint", st)
      | (.ok [], st) => endpointAgain V st e := by
    unfold trustMarkEndpoint
    rfl
  rw [ht]
  unfold getTrustChains
  cases hg : st.store.get? e with
  | some tcs =>
    cases tcs with
    | nil => exact alone_again V st e _ 1
    | cons tc tcs => exact ⟨.ok (tc :: tcs), by simp only [looked, got]; rw [alone_done], rfl⟩
  | none =>
    have hs := getVerified_store (V := V) (st := st) (entity := e) (stopAt := "")
    show ∃ r, alone .mark e (getVerified V st e).1 _ 4 (asked .mark e (getVerified V st e).1, ⟨e, st.store⟩) = _ ∧ _
    generalize getVerified V st e = g at hs ⊢
    obtain ⟨g, st2⟩ := g
    simp only at hs
    rw [← hs]
    match g with
    | .error x => exact ⟨.error x, by simp only [asked]; rw [alone_done], rfl⟩
    | .ok [] => exact alone_again V st2 e _ 0
    | .ok (tc :: tcs) =>
      refine ⟨.ok (tc :: tcs), ?_, rfl⟩
      show alone .mark e _ _ 3 (.done (.ok (tc :: tcs)), ⟨e, st2.store.set e (tc :: tcs)⟩) = _
      rw [alone_done]

/-! ### The property -/

/-- No thread has begun. -/
def Start (s : Sys) : Prop := ∀ i, (s.calls i).pc = if (s.calls i).kind = .get then .look (s.calls i).entity else .begin

/-- `tcs` were kept for entity `e` at the start, or were collected and verified for it in the meantime. -/
def Resolved (s : Sys) (ts : List Turn) (e : String) (tcs : List TrustChain) : Prop :=
  s.sh.store.get? e = some tcs ∨ ∃ t ∈ ts, t.answer e = .ok tcs

/-- Entity `e` is named by one of the `do_request`s that get a turn. -/
def Named (s : Sys) (ts : List Turn) (e : String) : Prop := ∃ t ∈ ts, (s.calls t.who).kind ≠ .get ∧ (s.calls t.who).entity = e

/-- C203, of requests: a request for a trust mark is sent according to trust chains of the entity it is for. -/
def C203_request_full : Prop := ∀ (s : Sys) (ts : List Turn), Start s → ∀ i tcs, (s.calls i).kind = .mark → ((run s ts).calls i).pc = .done (.ok tcs) → tcs ≠ [] →
  Resolved s ts (s.calls i).entity tcs

/-- C203, of what is kept: trust chains that are kept for an entity are trust chains of that entity. -/
def C203_store_full : Prop := ∀ (s : Sys) (ts : List Turn), Start s → ∀ e tcs, (run s ts).sh.store.get? e = some tcs → Resolved s ts e tcs

/-! ### What a turn changes -/

theorem turn_same (s : Sys) (t : Turn) (i : Nat) : ((turn s t).calls i).kind = (s.calls i).kind ∧ ((turn s t).calls i).entity = (s.calls i).entity := by
  simp only [turn]
  split
  · next h => subst h; exact ⟨rfl, rfl⟩
  · exact ⟨rfl, rfl⟩

theorem turn_self (s : Sys) (t : Turn) :
    ((turn s t).calls t.who).pc = (access (s.calls t.who).kind (s.calls t.who).entity t s.sh (s.calls t.who).pc).1 := by
  simp [turn]

theorem turn_other (s : Sys) (t : Turn) {i : Nat} (h : i ≠ t.who) : (turn s t).calls i = s.calls i := by
  simp [turn, h]

theorem run_same : ∀ (ts : List Turn) (s : Sys) (i : Nat), ((run s ts).calls i).kind = (s.calls i).kind ∧ ((run s ts).calls i).entity = (s.calls i).entity
  | [], _, _ => ⟨rfl, rfl⟩
  | t :: ts, s, i => ⟨(run_same ts (turn s t) i).1.trans (turn_same s t i).1, (run_same ts (turn s t) i).2.trans (turn_same s t i).2⟩

/-! ### The invariant -/

section Inv
variable (know : String → List TrustChain → Prop) (named : String → Prop) (safe : Prop)

/-- Trust chains of one of the entities that are named. -/
def Of (tcs : List TrustChain) : Prop := ∃ e, named e ∧ know e tcs

/-- What may be kept for an entity. -/
def May (e : String) (tcs : List TrustChain) : Prop := know e tcs ∨ (¬ safe ∧ named e ∧ Of know named tcs)

/-- What holds for a thread, depending on how far it has come. -/
def Good (c : Call) : Prop :=
  match c.pc with
  | .begin => True
  | .first => c.kind = .mark
  | .look e => (c.kind = .mark ∧ named e) ∨ (c.kind = .get ∧ e = c.entity)
  | .ask e => (c.kind = .mark ∧ named e) ∨ (c.kind = .get ∧ e = c.entity)
  | .keep e tcs => know e tcs ∧ ((c.kind = .mark ∧ named e) ∨ (c.kind = .get ∧ e = c.entity))
  | .second => c.kind = .mark ∧ ¬ safe
  | .askAgain e => c.kind = .mark ∧ ¬ safe ∧ named e
  | .third tcs => c.kind = .mark ∧ ¬ safe ∧ Of know named tcs
  | .put e tcs => c.kind = .mark ∧ ¬ safe ∧ named e ∧ Of know named tcs
  | .done (.ok tcs) => tcs ≠ [] → (c.kind = .mark → Of know named tcs) ∧ (c.kind = .get → May know named safe c.entity tcs)
  | .done (.error _) => True

/-- What holds for the process. -/
structure Inv (s : Sys) : Prop where
  issuer : ∀ i, (s.calls i).kind = .mark → (s.calls i).pc ≠ .begin → named s.sh.issuer
  store : ∀ e tcs, s.sh.store.get? e = some tcs → May know named safe e tcs
  calls : ∀ i, Good know named safe (s.calls i)

variable {know named safe}

theorem Of.of_may {e : String} {tcs : List TrustChain} (hn : named e) (h : May know named safe e tcs) : Of know named tcs :=
  h.elim (fun h => ⟨e, hn, h⟩) (fun h => h.2.2)

theorem good_got (hsafe : safe → ∀ e, named e → ¬ know e []) {k : Kind} {entity e : String} {tcs : List TrustChain}
    (h : (k = .mark ∧ named e) ∨ (k = .get ∧ e = entity)) (hm : May know named safe e tcs) : Good know named safe ⟨k, entity, got k tcs⟩ := by
  cases tcs with
  | nil =>
    unfold got
    by_cases hk : k = .mark
    · rw [if_pos hk]
      refine ⟨hk, fun hs => ?_⟩
      rcases h with h | h
      · rcases hm with hm | hm
        · exact hsafe hs e h.2 hm
        · exact hm.1 hs
      · rw [h.1] at hk; cases hk
    · rw [if_neg hk]
      exact fun hne => absurd rfl hne
  | cons tc tcs =>
    refine fun _ => ⟨fun hk => ?_, fun hk => ?_⟩
    · rcases h with h | h
      · exact Of.of_may h.2 hm
      · have hk : k = .mark := hk
        rw [h.1] at hk; cases hk
    · have hk : k = .get := hk
      rcases h with h | h
      · rw [h.1] at hk; cases hk
      · rw [← h.2]; exact hm

theorem good_access (hsafe : safe → ∀ e, named e → ¬ know e []) (c : Call) (t : Turn) (sh : Shared) (ha : ∀ e tcs, t.answer e = .ok tcs → know e tcs)
    (hi : c.kind = .mark → c.pc ≠ .begin → named sh.issuer) (hst : ∀ e tcs, sh.store.get? e = some tcs → May know named safe e tcs) (hc : Good know named safe c) :
    Good know named safe { c with pc := (access c.kind c.entity t sh c.pc).1 } := by
  obtain ⟨k, entity, pc⟩ := c
  cases pc with
  | begin =>
    simp only [access]
    by_cases hk : k = .mark
    · rw [if_pos hk]; exact hk
    · rw [if_neg hk]; exact fun hne => absurd rfl hne
  | first => exact .inl ⟨hc, hi hc (fun h => by cases h)⟩
  | look e =>
    simp only [access]
    cases hg : sh.store.get? e with
    | none => exact hc
    | some tcs => exact good_got hsafe hc (hst e tcs hg)
  | ask e =>
    simp only [access]
    match hr : t.answer e with
    | .error x => trivial
    | .ok [] => exact good_got hsafe hc (.inl (ha e _ hr))
    | .ok (tc :: tcs) => exact ⟨ha e _ hr, hc⟩
  | keep e tcs =>
    refine fun _ => ⟨fun hk => ?_, fun hk => ?_⟩
    · rcases hc.2 with h | h
      · exact ⟨e, h.2, hc.1⟩
      · have h := h.1; have hk : k = .mark := hk; rw [hk] at h; cases h
    · rcases hc.2 with h | h
      · have h := h.1; have hk : k = .get := hk; rw [hk] at h; cases h
      · exact .inl (h.2 ▸ hc.1)
  | second => exact ⟨hc.1, hc.2, hi hc.1 (fun h => by cases h)⟩
  | askAgain e =>
    simp only [access]
    match hr : t.answer e with
    | .error x => trivial
    | .ok [] => exact fun hne => absurd rfl hne
    | .ok (tc :: tcs) => exact ⟨hc.1, hc.2.1, e, hc.2.2, ha e _ hr⟩
  | third tcs => exact ⟨hc.1, hc.2.1, hi hc.1 (fun h => by cases h), hc.2.2⟩
  | put e tcs =>
    refine fun _ => ⟨fun _ => hc.2.2.2, fun hk => ?_⟩
    have hk : k = .get := hk
    have h := hc.1
    rw [hk] at h; cases h
  | done r => exact hc

theorem store_access (k : Kind) (entity : String) (t : Turn) (sh : Shared) (pc : Pc) (hst : ∀ e tcs, sh.store.get? e = some tcs → May know named safe e tcs)
    (hc : Good know named safe ⟨k, entity, pc⟩) : ∀ e tcs, (access k entity t sh pc).2.store.get? e = some tcs → May know named safe e tcs := by
  intro q qs h
  cases pc with
  | keep e tcs =>
    simp only [access] at h
    rw [Dict.get?_set] at h
    by_cases he : e = q
    · rw [if_pos he] at h; cases h; exact .inl (he ▸ hc.1)
    · rw [if_neg he] at h; exact hst q qs h
  | put e tcs =>
    simp only [access] at h
    rw [Dict.get?_set] at h
    by_cases he : e = q
    · rw [if_pos he] at h; cases h; exact .inr ⟨hc.2.1, he ▸ hc.2.2.1, hc.2.2.2⟩
    · rw [if_neg he] at h; exact hst q qs h
  | _ => exact hst q qs h

theorem issuer_access (k : Kind) (entity : String) (t : Turn) (sh : Shared) (pc : Pc) :
    (access k entity t sh pc).2.issuer = sh.issuer ∨ (pc = .begin ∧ (access k entity t sh pc).2.issuer = entity) := by
  cases pc with
  | begin => exact .inr ⟨rfl, rfl⟩
  | _ => exact .inl rfl

theorem inv_turn (hsafe : safe → ∀ e, named e → ¬ know e []) (s : Sys) (t : Turn) (ha : ∀ e tcs, t.answer e = .ok tcs → know e tcs)
    (hn : (s.calls t.who).pc = .begin → named (s.calls t.who).entity) (h : Inv know named safe s) : Inv know named safe (turn s t) where
  issuer := by
    intro i hk hp
    show named (access (s.calls t.who).kind (s.calls t.who).entity t s.sh (s.calls t.who).pc).2.issuer
    rcases issuer_access (s.calls t.who).kind (s.calls t.who).entity t s.sh (s.calls t.who).pc with hi | ⟨hb, hi⟩
    · rw [hi]
      rw [(turn_same s t i).1] at hk
      by_cases hw : i = t.who
      · subst hw
        by_cases hb : (s.calls t.who).pc = .begin
        · have : (access (s.calls t.who).kind (s.calls t.who).entity t s.sh (s.calls t.who).pc).2.issuer = (s.calls t.who).entity := by rw [hb]; rfl
          rw [← hi, this]; exact hn hb
        · exact h.issuer t.who hk hb
      · rw [turn_other s t hw] at hp
        exact h.issuer i hk hp
    · rw [hi]; exact hn hb
  store := store_access _ _ t s.sh _ h.store (h.calls t.who)
  calls := by
    intro i
    by_cases hw : i = t.who
    · subst hw
      have := good_access hsafe (s.calls t.who) t s.sh ha (h.issuer t.who) h.store (h.calls t.who)
      simpa [turn] using this
    · rw [turn_other s t hw]; exact h.calls i
end Inv

/-- A thread that asks for trust chains never writes down whom it is for. -/
def Ready (s : Sys) : Prop := ∀ i, (s.calls i).kind = .get → (s.calls i).pc ≠ .begin

theorem access_begin (k : Kind) (entity : String) (t : Turn) (sh : Shared) (pc : Pc) : (access k entity t sh pc).1 ≠ .begin := by
  cases pc with
  | begin => simp only [access]; split <;> exact fun h => by cases h
  | look e =>
    simp only [access]
    match sh.store.get? e with
    | none => exact fun h => by cases h
    | some [] => simp only [looked, got]; split <;> exact fun h => by cases h
    | some (_ :: _) => exact fun h => by cases h
  | ask e =>
    simp only [access]
    match t.answer e with
    | .error _ => exact fun h => by cases h
    | .ok [] => simp only [asked, got]; split <;> exact fun h => by cases h
    | .ok (_ :: _) => exact fun h => by cases h
  | askAgain e =>
    simp only [access]
    match t.answer e with
    | .error _ => exact fun h => by cases h
    | .ok [] => exact fun h => by cases h
    | .ok (_ :: _) => exact fun h => by cases h
  | _ => exact fun h => by cases h

theorem ready_turn {s : Sys} (t : Turn) (h : Ready s) : Ready (turn s t) := by
  intro i hk
  rw [(turn_same s t i).1] at hk
  by_cases hw : i = t.who
  · subst hw
    rw [turn_self]
    exact access_begin _ _ _ _ _
  · rw [turn_other s t hw]; exact h i hk

theorem inv_run {know : String → List TrustChain → Prop} {named : String → Prop} {safe : Prop} (hsafe : safe → ∀ e, named e → ¬ know e []) : ∀ (ts : List Turn) (s : Sys), Ready s →
    (∀ t ∈ ts, ∀ e tcs, t.answer e = .ok tcs → know e tcs) → (∀ t ∈ ts, (s.calls t.who).kind ≠ .get → named (s.calls t.who).entity) → Inv know named safe s → Inv know named safe (run s ts)
  | [], _, _, _, _, h => h
  | t :: ts, s, hr, ha, hn, h => by
      refine inv_run hsafe ts (turn s t) (ready_turn t hr) (fun u hu => ha u (List.mem_cons_of_mem _ hu)) (fun u hu hk => ?_)
        (inv_turn hsafe s t (ha t (by simp)) (fun hb => hn t (by simp) (fun hk => hr t.who hk hb)) h)
      rw [(turn_same s t u.who).1] at hk
      rw [(turn_same s t u.who).2]
      exact hn u (List.mem_cons_of_mem _ hu) hk

theorem inv_start {s : Sys} {ts : List Turn} {safe : Prop} (hs : Start s) : Inv (Resolved s ts) (Named s ts) safe s where
  issuer := by
    intro i hk hp
    have := hs i
    rw [hk, if_neg (by decide)] at this
    exact absurd this hp
  store := fun e tcs h => .inl (.inl h)
  calls := by
    intro i
    have := hs i
    unfold Good
    by_cases hk : (s.calls i).kind = .get
    · rw [if_pos hk] at this
      rw [this]
      exact .inr ⟨hk, rfl⟩
    · rw [if_neg hk] at this
      rw [this]
      trivial

theorem inv_all {s : Sys} {ts : List Turn} {safe : Prop} (hs : Start s) (hsafe : safe → ∀ e, Named s ts e → ¬ Resolved s ts e []) : Inv (Resolved s ts) (Named s ts) safe (run s ts) := by
  refine inv_run hsafe ts s ?_ (fun t ht e tcs h => .inr ⟨t, ht, h⟩) (fun t ht hk => ⟨t, ht, hk, rfl⟩) (inv_start hs)
  intro i hk hb
  have := hs i
  rw [if_pos hk, hb] at this
  cases this

/-! ### What holds -/

/-- In any case the request for a trust mark is sent according to trust chains of an entity that some request at the time is for, and trust chains kept for an entity are of that
entity or of such a one. Missing: that the entity is the right one. -/
theorem C203_named_partial (s : Sys) (ts : List Turn) (hs : Start s) :
    (∀ i tcs, (s.calls i).kind = .mark → ((run s ts).calls i).pc = .done (.ok tcs) → tcs ≠ [] → ∃ e, Named s ts e ∧ Resolved s ts e tcs) ∧
      ∀ e tcs, (run s ts).sh.store.get? e = some tcs → Resolved s ts e tcs ∨ (Named s ts e ∧ ∃ e', Named s ts e' ∧ Resolved s ts e' tcs) := by
  have h := inv_all (ts := ts) (safe := False) hs (fun h => h.elim)
  refine ⟨fun i tcs hk hp hne => ?_, fun e tcs hg => ?_⟩
  · have := h.calls i
    unfold Good at this
    rw [hp] at this
    exact (this hne).1 ((run_same ts s i).1.trans hk)
  · exact (h.store e tcs hg).imp id (fun h => h.2)

/-- C203 while all requests at the time are for the same entity. Missing: requests for different entities. -/
theorem C203_same_partial (s : Sys) (ts : List Turn) (hs : Start s) (e : String) (he : ∀ e', Named s ts e' → e' = e) :
    (∀ i tcs, (s.calls i).kind = .mark → ((run s ts).calls i).pc = .done (.ok tcs) → tcs ≠ [] → Resolved s ts e tcs) ∧
      ∀ q tcs, (run s ts).sh.store.get? q = some tcs → Resolved s ts q tcs := by
  obtain ⟨h1, h2⟩ := C203_named_partial s ts hs
  refine ⟨fun i tcs hk hp hne => ?_, fun q tcs hg => ?_⟩
  · obtain ⟨e', h3, h4⟩ := h1 i tcs hk hp hne
    rw [he e' h3] at h4
    exact h4
  · rcases h2 q tcs hg with h | ⟨h3, e', h4, h5⟩
    · exact h
    · rw [he e' h4] at h5
      rw [he q h3]
      exact h5

/-- What is kept for entities that no request at the time is for, and what a thread that asks for their trust chains is given, is theirs. Missing: the entities that requests are for. -/
theorem C203_others_partial (s : Sys) (ts : List Turn) (hs : Start s) (e : String) (he : ¬ Named s ts e) :
    (∀ tcs, (run s ts).sh.store.get? e = some tcs → Resolved s ts e tcs) ∧
      ∀ i tcs, (s.calls i).kind = .get → (s.calls i).entity = e → ((run s ts).calls i).pc = .done (.ok tcs) → tcs ≠ [] → Resolved s ts e tcs := by
  have h := inv_all (ts := ts) (safe := False) hs (fun h => h.elim)
  have hm : ∀ tcs, May (Resolved s ts) (Named s ts) False e tcs → Resolved s ts e tcs := fun tcs h => h.elim id (fun h => absurd h.2.1 he)
  refine ⟨fun tcs hg => hm tcs (h.store e tcs hg), fun i tcs hk hi hp hne => ?_⟩
  have := h.calls i
  unfold Good at this
  rw [hp] at this
  have := (this hne).2 ((run_same ts s i).1.trans hk)
  rw [(run_same ts s i).2, hi] at this
  exact hm tcs this

/-- C203, of what is kept and of what threads are given that ask for trust chains, while there are trust chains for all the entities that requests are for. Missing: entities without
trust chains. -/
theorem C203_store_partial (s : Sys) (ts : List Turn) (hs : Start s) (hne : ∀ e, Named s ts e → ¬ Resolved s ts e []) :
    (∀ e tcs, (run s ts).sh.store.get? e = some tcs → Resolved s ts e tcs) ∧
      ∀ i tcs, (s.calls i).kind = .get → ((run s ts).calls i).pc = .done (.ok tcs) → tcs ≠ [] → Resolved s ts (s.calls i).entity tcs := by
  have h := inv_all (safe := True) hs (fun _ => hne)
  have hm : ∀ e tcs, May (Resolved s ts) (Named s ts) True e tcs → Resolved s ts e tcs := fun e tcs h => h.elim id (fun h => absurd trivial h.1)
  refine ⟨fun e tcs hg => hm e tcs (h.store e tcs hg), fun i tcs hk hp hn => ?_⟩
  have := h.calls i
  unfold Good at this
  rw [hp] at this
  have := (this hn).2 ((run_same ts s i).1.trans hk)
  rw [(run_same ts s i).2] at this
  exact hm _ tcs this

/-- The turns of thread `i` alone, given what collecting gives it the first and the second time. -/
def own (i : Nat) (a1 a2 : Except PyErr (List TrustChain)) : Nat → Sys → List Turn
  | 0, _ => []
  | n + 1, s => ⟨i, fun _ => answerOf a1 a2 (s.calls i).pc⟩ :: own i a1 a2 n (turn s ⟨i, fun _ => answerOf a1 a2 (s.calls i).pc⟩)

theorem run_own (i : Nat) (a1 a2 : Except PyErr (List TrustChain)) : ∀ (n : Nat) (s : Sys),
    (((run s (own i a1 a2 n s)).calls i).pc, (run s (own i a1 a2 n s)).sh) = alone (s.calls i).kind (s.calls i).entity a1 a2 n ((s.calls i).pc, s.sh)
  | 0, _ => rfl
  | n + 1, s => by
      have h := run_own i a1 a2 n (turn s ⟨i, fun _ => answerOf a1 a2 (s.calls i).pc⟩)
      rw [(turn_same s _ i).1, (turn_same s _ i).2, turn_self s ⟨i, fun _ => answerOf a1 a2 (s.calls i).pc⟩] at h
      exact h

/-- A request for a trust mark that is handled alone is sent where it is sent in the sequential model, and leaves the same trust chains behind. -/
theorem C203_sequential (V : Env) (st : State) (s : Sys) (i : Nat) (hs : Start s) (hk : (s.calls i).kind = .mark) (hst : s.sh.store = st.store) :
    ∃ r, ((run s (own i (getVerified V st (s.calls i).entity).1 (getVerified V (getTrustChains V st (s.calls i).entity).2 (s.calls i).entity).1 8 s)).calls i).pc = .done r ∧
      url r = (trustMarkEndpoint V st (s.calls i).entity).1 ∧
      (run s (own i (getVerified V st (s.calls i).entity).1 (getVerified V (getTrustChains V st (s.calls i).entity).2 (s.calls i).entity).1 8 s)).sh.store =
        (trustMarkEndpoint V st (s.calls i).entity).2.store := by
  have hp := hs i
  rw [hk, if_neg (by decide)] at hp
  have h := run_own i (getVerified V st (s.calls i).entity).1 (getVerified V (getTrustChains V st (s.calls i).entity).2 (s.calls i).entity).1 8 s
  obtain ⟨r, h1, h2⟩ := alone_eq V st (s.calls i).entity s.sh.issuer
  have hsh : s.sh = ⟨s.sh.issuer, st.store⟩ := by rw [← hst]
  rw [hp, hk] at h
  rw [hsh, h1] at h
  have h3 := congrArg Prod.fst h
  have h4 := congrArg (fun x => x.2.store) h
  exact ⟨r, h3, h2, h4⟩

/-! ### What does not hold -/

/-- C203, of threads that ask for the trust chains of an entity: they are given trust chains of that entity. -/
def C203_get_full : Prop := ∀ (s : Sys) (ts : List Turn), Start s → ∀ i tcs, (s.calls i).kind = .get → ((run s ts).calls i).pc = .done (.ok tcs) → tcs ≠ [] →
  Resolved s ts (s.calls i).entity tcs

namespace Ex
/-- A trust chain of an entity with an endpoint for trust marks. -/
def chain (url : String) : TrustChain :=
  { anchor := "https://ta", issPath := [], exp := 0, verified := [], chain := [], metadata := [("federation_entity", .obj [("federation_trust_mark_endpoint", .str url)])] }
/-- Two entities of the federation, and one that is not of it. -/
def answer (e : String) : Except PyErr (List TrustChain) :=
  if e = "https://a" then .ok [chain "https://a/mark"] else if e = "https://b" then .ok [chain "https://b/mark"] else .ok []
/-- Threads of which each does what is listed, for the entity that is listed. -/
def call (k : Kind) (e : String) : Call := ⟨k, e, if k = .get then .look e else .begin⟩
def sys (l : List (Kind × String)) : Sys := { sh := ⟨"", []⟩, calls := fun i => call (l[i]?.getD (.other, "")).1 (l[i]?.getD (.other, "")).2 }
theorem start (l : List (Kind × String)) : Start (sys l) := fun _ => rfl
def turns (l : List Nat) : List Turn := l.map fun i => ⟨i, answer⟩
theorem resolved (l : List (Kind × String)) (who : List Nat) {e : String} {tcs : List TrustChain} (h : Resolved (sys l) (turns who) e tcs) : answer e = .ok tcs := by
  rcases h with h | ⟨t, ht, h⟩
  · cases h
  · simp only [turns, List.mem_map] at ht
    obtain ⟨_, -, rfl⟩ := ht
    exact h
end Ex

/-- C203 does not hold of requests: of two requests for trust marks of different issuers the first is sent to the other issuer. -/
theorem C203_request_violation : ¬ C203_request_full := by
  intro h
  have h1 := Ex.resolved _ _ (h (Ex.sys [(.mark, "https://a"), (.mark, "https://b")]) (Ex.turns [0, 1, 0, 0, 0, 0]) (Ex.start _) 0 [Ex.chain "https://b/mark"] rfl (by decide +kernel) (by decide))
  exact absurd h1 (by decide +kernel)

/-- Nor of what is kept: for an entity without trust chains those of another entity are kept, after a request for a trust mark of it, while there is a request to the other entity and then one to it. -/
theorem C203_store_violation : ¬ C203_store_full := by
  intro h
  have h1 := Ex.resolved _ _ (h (Ex.sys [(.mark, "https://x"), (.other, "https://b"), (.other, "https://x")]) (Ex.turns [0, 0, 0, 0, 1, 0, 0, 2, 0, 0]) (Ex.start _) "https://x" [Ex.chain "https://b/mark"] (by decide +kernel))
  exact absurd h1 (by decide +kernel)

/-- So from then on that entity counts as one with trust chains. -/
theorem C203_get_violation : ¬ C203_get_full := by
  intro h
  have h1 := Ex.resolved _ _ (h (Ex.sys [(.mark, "https://x"), (.other, "https://b"), (.other, "https://x"), (.get, "https://x")]) (Ex.turns [0, 0, 0, 0, 1, 0, 0, 2, 0, 0, 3]) (Ex.start _) 3 [Ex.chain "https://b/mark"] rfl
    (by decide +kernel) (by decide))
  exact absurd h1 (by decide +kernel)

/-- A case of C203_same_partial: two requests for the same entity and a thread that asks for trust chains of another one, in turns. -/
example : ((run (Ex.sys [(.mark, "https://a"), (.mark, "https://a"), (.get, "https://b")]) (Ex.turns [0, 2, 1, 0, 1, 2, 0, 1, 2, 0, 1, 0, 1])).calls 1).pc = .done (.ok [Ex.chain "https://a/mark"]) ∧
    ∀ e', Named (Ex.sys [(.mark, "https://a"), (.mark, "https://a"), (.get, "https://b")]) (Ex.turns [0, 2, 1, 0, 1, 2, 0, 1, 2, 0, 1, 0, 1]) e' → e' = "https://a" := by
  refine ⟨by decide +kernel, ?_⟩
  rintro e' ⟨t, ht, hk, he⟩
  simp only [Ex.turns, List.map_cons, List.map_nil, List.mem_cons, List.not_mem_nil, or_false] at ht
  rcases ht with rfl | rfl | rfl | rfl | rfl | rfl | rfl | rfl | rfl | rfl | rfl | rfl | rfl <;> first | exact he.symm | exact absurd rfl hk

/-- A case of C203_store_partial, C203_named_partial and C203_others_partial: the schedule of C203_request_violation, with a thread that asks for the trust chains of an entity that has none. -/
example : ((run (Ex.sys [(.mark, "https://a"), (.mark, "https://b"), (.get, "https://x")]) (Ex.turns [0, 1, 2, 0, 0, 2, 0, 0])).calls 0).pc = .done (.ok [Ex.chain "https://b/mark"]) ∧
    ((run (Ex.sys [(.mark, "https://a"), (.mark, "https://b"), (.get, "https://x")]) (Ex.turns [0, 1, 2, 0, 0, 2, 0, 0])).calls 2).pc = .done (.ok []) ∧
    (run (Ex.sys [(.mark, "https://a"), (.mark, "https://b"), (.get, "https://x")]) (Ex.turns [0, 1, 2, 0, 0, 2, 0, 0])).sh.store = [("https://b", [Ex.chain "https://b/mark"])] ∧
    ∀ e, Named (Ex.sys [(.mark, "https://a"), (.mark, "https://b"), (.get, "https://x")]) (Ex.turns [0, 1, 2, 0, 0, 2, 0, 0]) e →
      ¬ Resolved (Ex.sys [(.mark, "https://a"), (.mark, "https://b"), (.get, "https://x")]) (Ex.turns [0, 1, 2, 0, 0, 2, 0, 0]) e [] := by
  refine ⟨by decide +kernel, by decide +kernel, by decide +kernel, ?_⟩
  rintro e ⟨t, ht, hk, rfl⟩ h
  have h := Ex.resolved _ _ h
  simp only [Ex.turns, List.map_cons, List.map_nil, List.mem_cons, List.not_mem_nil, or_false] at ht
  rcases ht with rfl | rfl | rfl | rfl | rfl | rfl | rfl | rfl <;> first | exact absurd h (by decide +kernel) | exact absurd rfl hk

/-- A case of C203_sequential. -/
example : Start (Ex.sys [(.mark, "https://im")]) ∧ ((Ex.sys [(.mark, "https://im")]).calls 0).kind = .mark ∧ (Ex.sys [(.mark, "https://im")]).sh.store = Chains.Ex.st.store := ⟨Ex.start _, rfl, rfl⟩

end Fed.Chains.IssuerThreads
