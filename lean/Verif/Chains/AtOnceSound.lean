import Verif.Chains.AtOnceProps
/-
Entities resolved at the same time (`Verif.Chains.AtOnce`) in any federation whatever: entities that lie, answers that change, caches filled with anything. What is returned is vouched for.
-/
namespace Fed.Chains.AtOnce
open Fed Fed.Verify Prog

/-- `verify_trust_chains` and `apply_policies` for a chain that was handed in (/repo/src/fedservice/appserver/oidc/authorization.py 53-57, /repo/src/fedservice/entity/function/__init__.py 101-151). -/
def givenChainsP (V : Env) (chain : List Doc) : Prog (Except PyErr (List TrustChain)) :=
  (verifyChainsP V.L [chain]).andThen fun tcs => .ret (applyPolicies V.E V.K tcs)

/-- `do_automatic_registration` of the OpenID endpoint (/repo/src/fedservice/appserver/oidc/authorization.py 52-67) as far as the federation is concerned: the chain that was sent along, leaf first, is
verified, or else the client is resolved; the result is stored under the name the client gave. What is done with the metadata afterwards (70-93) is left out. -/
def registrationP (V : Env) (client : String) (sent : List Doc) : Prog (Except PyErr (List TrustChain)) :=
  (if sent.isEmpty then getVerifiedP V client else givenChainsP V sent.reverse).andThen fun tcs =>
    match tcs with
    | [] => .ret (.error .noTrustedChains)
    | tc :: tcs => .act (fun s => { s with store := s.store.set client (tc :: tcs) }) fun _ => .ret (.ok (tc :: tcs))

/-! ### What was found -/

/-- The configuration of `a` is one that was cached at the start, or one that some thread found, self-signed. -/
def Found (C : Crypto) (world : Nat → Collect.World) (st0 : Collect.State) (a : String) (j : Jws) : Prop :=
  st0.config.get? a = some ⟨j⟩ ∨ ∃ i, (world i).config a = .ok (some j) ∧ selfVerify C (world i).now j = .ok j.payload

/-- The fetch endpoint named in a configuration of `a` answered some thread with `s` when asked about `e`. -/
def Told (C : Crypto) (world : Nat → Collect.World) (st0 : Collect.State) (a e : String) (s : Jws) : Prop :=
  ∃ i j fe ep, Found C world st0 a j ∧ j.payload.md.get? "federation_entity" = some fe ∧ fe.get? "federation_fetch_endpoint" = some ep ∧ (world i).fetch ep a e = .ok (some s)

/-- What may be in the statement cache under a key. -/
def Held (C : Crypto) (world : Nat → Collect.World) (st0 : Collect.State) (k : String) (s : Jws) : Prop :=
  st0.es.get? k = some (.stmt s) ∨ ∃ a e, k = Collect.cacheKey a e ∧ Told C world st0 a e s

/-- `k` was a key of `e` at the start, or is declared for `e` by a document signed with a key that is backed in turn. -/
inductive Backed (L : Lib) (jar : KeyJar) (doc : Jws → Prop) : String → Key → Prop
  | start {e k} : k ∈ jar.keysOf e → Backed L jar doc e k
  | declared {j k' ks k} : doc j → Backed L jar doc j.payload.iss k' → L.usable j k' = true → L.verifies j k' = true → j.payload.jwks = some ks → k ∈ ks →
      Backed L jar doc j.payload.sub k

/-- `e` was known at the start or is the subject of a document signed with a key that is backed. -/
def BackedEntity (L : Lib) (jar : KeyJar) (doc : Jws → Prop) (e : String) : Prop :=
  Dict.has jar e = true ∨ ∃ j k, doc j ∧ Backed L jar doc j.payload.iss k ∧ L.usable j k = true ∧ L.verifies j k = true ∧ j.payload.sub = e

/-- The chain is a way up along the authority hints from a configuration of the entity, with statements of the authorities; it is accepted with the keys there are, and its metadata is
what the policies in it make of what the entity declares. -/
def Sound (V : Env) (src : String → String → Jws → Prop) (cfg : String → Jws → Prop) (jar : KeyJar) (e : String) (tc : TrustChain) : Prop :=
  ∃ ec p tc0, cfg e ec ∧ HintPath src cfg e ec.payload p ∧ tc.chain = ((p.map (·.2)).reverse ++ [ec]).map some ∧
    (verifyChain V.L jar tc.chain).1 = .ok (some tc0) ∧ applyToChain V.E V.K tc0 = .ok tc

theorem Sound.mono {V : Env} {src cfg} {jar jar' : KeyJar} {e : String} {tc : TrustChain} (h : Sound V src cfg jar e tc) (hg : Threads.Grows jar jar') : Sound V src cfg jar' e tc := by
  obtain ⟨ec, p, tc0, h1, h2, h3, h4, h5⟩ := h
  exact ⟨ec, p, tc0, h1, h2, h3, verifyChain_mono hg.1 hg.2 h4, h5⟩

/-- The chain was sent along in the name of the entity; it is accepted with the keys there are, and its metadata is what the policies in it make of what its subject declares. -/
def Handed (V : Env) (given : String → List Doc → Prop) (jar : KeyJar) (e : String) (tc : TrustChain) : Prop :=
  ∃ tc0, given e tc.chain ∧ (verifyChain V.L jar tc.chain).1 = .ok (some tc0) ∧ applyToChain V.E V.K tc0 = .ok tc

theorem Handed.mono {V : Env} {given} {jar jar' : KeyJar} {e : String} {tc : TrustChain} (h : Handed V given jar e tc) (hg : Threads.Grows jar jar') : Handed V given jar' e tc := by
  obtain ⟨tc0, h1, h2, h3⟩ := h
  exact ⟨tc0, h1, verifyChain_mono hg.1 hg.2 h2, h3⟩

/-- One or the other. -/
def Vouched (V : Env) (src : String → String → Jws → Prop) (cfg : String → Jws → Prop) (given : String → List Doc → Prop) (jar : KeyJar) (e : String) (tc : TrustChain) : Prop :=
  Sound V src cfg jar e tc ∨ Handed V given jar e tc

theorem Vouched.mono {V : Env} {src cfg given} {jar jar' : KeyJar} {e : String} {tc : TrustChain} (h : Vouched V src cfg given jar e tc) (hg : Threads.Grows jar jar') :
    Vouched V src cfg given jar' e tc := h.imp (·.mono hg) (·.mono hg)

/-! ### What the accesses keep -/

/-- `cfg` are the configurations that may be found, `held` the statements that may be in the cache, `doc` all documents that may be seen, `given` the chains sent along in the name of an entity. -/
structure Sane (V : Env) (jar0 : KeyJar) (cfg : String → Jws → Prop) (held : String → Jws → Prop) (doc : Jws → Prop) (given : String → List Doc → Prop) (s : State) : Prop where
  config : ∀ e c, s.coll.config.get? e = some c → cfg e c.jws
  es : ∀ k j, s.coll.es.get? k = some (.stmt j) → held k j
  keys : ∀ e k, k ∈ s.jar.keysOf e → Backed V.L jar0 doc e k
  entities : ∀ e, Dict.has s.jar e = true → BackedEntity V.L jar0 doc e
  store : ∀ e tcs, s.store.get? e = some tcs → ∀ tc ∈ tcs, Vouched V (fun a e => held (Collect.cacheKey a e)) cfg given s.jar e tc

/-- The key jar only grows. -/
def More (s s' : State) : Prop := Threads.Grows s.jar s'.jar

theorem More.refl (s : State) : More s s := Threads.Grows.refl _
theorem More.trans {a b c : State} (h : More a b) (h' : More b c) : More a c := Threads.Grows.trans h h'

section
variable {V : Env} {jar0 : KeyJar} {cfg : String → Jws → Prop} {held : String → Jws → Prop} {doc : Jws → Prop} {given : String → List Doc → Prop}

/-- `Safe` with these. -/
local notation "SafeS" => Safe (Sane V jar0 cfg held doc given) More

theorem Sane.dropConfig {s : State} (h : Sane V jar0 cfg held doc given s) (k : String) : Sane V jar0 cfg held doc given (onConfig (fun d => Collect.drop d k) s) where
  config e c hc := by
    simp only [onConfig, Collect.drop, Dict.get?_filter_ne] at hc
    split at hc
    · cases hc
    · exact h.config e c hc
  es := h.es
  keys := h.keys
  entities := h.entities
  store := h.store

theorem Sane.setConfig {s : State} (h : Sane V jar0 cfg held doc given s) {a : String} {j : Jws} (hj : cfg a j) : Sane V jar0 cfg held doc given (onConfig (fun d => d.set a ⟨j⟩) s) where
  config e c hc := by
    simp only [onConfig, Dict.get?_set] at hc
    split at hc
    · rename_i h'; subst h'; cases hc; exact hj
    · exact h.config e c hc
  es := h.es
  keys := h.keys
  entities := h.entities
  store := h.store

theorem Sane.dropEs {s : State} (h : Sane V jar0 cfg held doc given s) (k : String) : Sane V jar0 cfg held doc given (onEs (fun d => Collect.drop d k) s) where
  config := h.config
  es q j hq := by
    simp only [onEs, Collect.drop, Dict.get?_filter_ne] at hq
    split at hq
    · cases hq
    · exact h.es q j hq
  keys := h.keys
  entities := h.entities
  store := h.store

theorem Sane.setEs {s : State} (h : Sane V jar0 cfg held doc given s) {k : String} {v : Collect.ESVal} (hv : ∀ j, v = .stmt j → held k j) : Sane V jar0 cfg held doc given (onEs (fun d => d.set k v) s) where
  config := h.config
  es q j hq := by
    simp only [onEs, Dict.get?_set] at hq
    split at hq
    · rename_i h'; subst h'; cases hq; exact hv j rfl
    · exact h.es q j hq
  keys := h.keys
  entities := h.entities
  store := h.store

theorem subscript_sound (delta now : Int) (a : String) (s : State) : SafeS (fun r _ => ∀ c, r = .ok (some c) → cfg a c.jws) (subscriptP delta now a) s := by
  intro s1 _ hk
  refine ⟨hk, More.refl _, ?_⟩
  simp only [id]
  cases hc : s1.coll.config.get? a with
  | none => intro c h; cases h
  | some c =>
    simp only
    cases c.jws.payload.exp with
    | none => intro c h; cases h
    | some e =>
      simp only
      split
      · intro c' h; cases h; exact hk.config a c hc
      · intro s2 _ hk2
        refine ⟨hk2.dropConfig a, Threads.Grows.refl _, ?_⟩
        simp only
        cases s2.coll.config.get? a <;> intro c h <;> cases h

variable {C : Crypto} {P : Collect.Params} {W : Collect.World}

theorem refresh_sound (hcfg : ∀ a j, W.config a = .ok (some j) → selfVerify C W.now j = .ok j.payload → cfg a j) (a : String) (s : State) :
    SafeS (fun r _ => ∀ ep, r = .ok ep → ∃ j, cfg a j ∧ Collect.getFetchEndpoint j.payload = .ok ep) (refreshP C W a) s := by
  unfold refreshP
  cases h1 : W.config a with
  | error e => intro ep h; cases h
  | ok d =>
    cases d with
    | none => intro ep h; cases h
    | some j =>
      simp only
      cases h2 : selfVerify C W.now j with
      | error e => intro ep h; cases h
      | ok p =>
        have := Collect.selfVerify_payload h2
        subst this
        simp only
        cases h3 : Collect.getFetchEndpoint j.payload with
        | error e => intro ep h; cases h
        | ok ep =>
          intro s1 _ hk
          exact ⟨hk.setConfig (hcfg a j h1 h2), Threads.Grows.refl _, fun ep' h => by cases h; exact ⟨j, hcfg a j h1 h2, h3⟩⟩

theorem fetchEndpoint_sound (hcfg : ∀ a j, W.config a = .ok (some j) → selfVerify C W.now j = .ok j.payload → cfg a j) (a : String) (s : State) (hk : Sane V jar0 cfg held doc given s) :
    SafeS (fun r _ => ∀ ep, r = .ok ep → ∃ j, cfg a j ∧ Collect.getFetchEndpoint j.payload = .ok ep) (fetchEndpointP C P W a) s := by
  refine Safe.andThen More.refl More.trans (subscript_sound P.delta W.now a s) hk (fun e _ _ _ _ ep h => by cases h) fun o s1 _ hk1 ho => ?_
  cases o with
  | none => exact refresh_sound hcfg a s1
  | some c =>
    simp only
    cases h3 : Collect.getFetchEndpoint c.jws.payload with
    | error e => intro ep h; cases h
    | ok ep =>
      simp only
      cases Collect.usableEndpoint ep with
      | none => exact refresh_sound hcfg a s1
      | some v => intro ep' h; cases h; exact ⟨c.jws, ho c rfl, h3⟩

/-- What the world has to do with what may be found. -/
structure Reports (C : Crypto) (W : Collect.World) (cfg : String → Jws → Prop) (held : String → Jws → Prop) : Prop where
  config : ∀ a j, W.config a = .ok (some j) → selfVerify C W.now j = .ok j.payload → cfg a j
  fetch : ∀ a j ep e s, cfg a j → Collect.getFetchEndpoint j.payload = .ok (some ep) → W.fetch ep a e = .ok (some s) → held (Collect.cacheKey a e) s

theorem fetchStatement_sound (hR : Reports C W cfg held) (e a : String) (s : State) (hk : Sane V jar0 cfg held doc given s) :
    SafeS (fun r _ => ∀ j, r = .ok (some j) → held (Collect.cacheKey a e) j) (fetchStatementP C P W e a) s := by
  refine Safe.andThen More.refl More.trans (fetchEndpoint_sound hR.config a s hk) hk (fun e _ _ _ _ ep h => by cases h) fun ep s1 _ hk1 ho => ?_
  obtain ⟨j0, h1, h2⟩ := ho ep rfl
  cases hu : Collect.usableEndpoint ep with
  | none => intro j h; cases h
  | some v =>
    obtain ⟨rfl, -⟩ := Collect.usableEndpoint_some hu
    simp only
    cases hf : W.fetch v a e with
    | error x => intro j h; cases h
    | ok d =>
      cases d with
      | none => intro j h; cases h
      | some j =>
        have hj := hR.fetch a j0 v e j h1 h2 hf
        simp only
        intro s2 _ hk2
        refine ⟨hk2.setEs fun j' h => by cases h; exact hj, Threads.Grows.refl _, ?_⟩
        cases j.payload.exp with
        | none => intro j h; cases h
        | some x =>
          intro s3 _ hk3
          exact ⟨hk3.setEs (fun j' h => by cases h), Threads.Grows.refl _, fun j' h => by cases h; exact hj⟩

theorem getStatement_sound (hR : Reports C W cfg held) (e a : String) (s : State) :
    SafeS (fun r _ => ∀ j, r = .ok (some j) → held (Collect.cacheKey a e) j) (getStatementP C P W e a) s := by
  intro s1 _ hk1
  refine ⟨hk1, More.refl _, ?_⟩
  simp only [id]
  cases hc : s1.coll.es.get? (Collect.cacheKey a e) with
  | none => exact fetchStatement_sound hR e a s1 hk1
  | some v =>
    cases v with
    | time x => intro j h; cases h
    | stmt j =>
      simp only
      intro s2 _ hk2
      refine ⟨hk2, More.refl _, ?_⟩
      simp only [id]
      cases s2.coll.es.get? (Collect.timeKey a e) with
      | none => intro j h; cases h
      | some v =>
        cases v with
        | stmt _ => intro j h; cases h
        | time x =>
          simp only
          split
          · intro s3 _ hk3
            refine ⟨hk3.dropEs _, Threads.Grows.refl _, ?_⟩
            simp only
            cases s3.coll.es.get? (Collect.cacheKey a e) with
            | none => intro j h; cases h
            | some _ =>
              intro s4 _ hk4
              refine ⟨hk4.dropEs _, Threads.Grows.refl _, ?_⟩
              simp only
              cases s4.coll.es.get? (Collect.timeKey a e) with
              | none => intro j h; cases h
              | some _ => exact fetchStatement_sound hR e a _ (hk4.dropEs _)
          · intro j' h; cases h; exact hk1.es _ j hc

/-- All ways up in the tree are along hints. -/
def Honest (cfg : String → Jws → Prop) (held : String → Jws → Prop) (e : String) (c : Payload) (f : Collect.Forest Jws) : Prop :=
  ∀ p, (Collect.IsPath f p ∨ Collect.IsCut f p) → HintPath (fun a e => held (Collect.cacheKey a e)) cfg e c p

/-- The same of a branch. -/
def HonestBranch (cfg : String → Jws → Prop) (held : String → Jws → Prop) (e a : String) (b : Collect.Branch) : Prop :=
  ∀ s f, b = some (s, f) → held (Collect.cacheKey a e) s ∧ ∃ ca, cfg a ca ∧ Honest cfg held a ca.payload f

theorem Honest.nil (e : String) (c : Payload) : Honest cfg held e c .nil := by
  rintro p (h | h)
  · exact absurd h Collect.not_isPath_nil
  · exact absurd h Collect.isCut_nil

theorem Honest.of_items {e : String} {c : Payload} {hs : List String} {f : Collect.Forest Jws} (hh : c.hints = some hs) (h : ∀ a b, (a, b) ∈ f.items → a ∈ hs ∧ HonestBranch cfg held e a b) :
    Honest cfg held e c f := by
  rintro p (hp | hp)
  · cases hp with
    | top hm =>
      obtain ⟨h1, h2⟩ := h _ _ hm
      obtain ⟨h3, ca, h4, h5⟩ := h2 _ _ rfl
      exact .cons hh h1 h3 h4 .nil
    | step hm hp =>
      obtain ⟨h1, h2⟩ := h _ _ hm
      obtain ⟨h3, ca, h4, h5⟩ := h2 _ _ rfl
      exact .cons hh h1 h3 h4 (h5 _ (Or.inl hp))
  · cases hp with
    | here _ => exact .nil
    | step hm hp =>
      obtain ⟨h1, h2⟩ := h _ _ hm
      obtain ⟨h3, ca, h4, h5⟩ := h2 _ _ rfl
      exact .cons hh h1 h3 h4 (h5 _ (Or.inr hp))

theorem overHints_sound {bp : String → Prog (Except PyErr Collect.Branch)} {e : String} {all : List String}
    (hb : ∀ a s, Sane V jar0 cfg held doc given s → SafeS (fun r _ => ∀ b, r = .ok b → HonestBranch cfg held e a b) (bp a) s) : ∀ (hs : List String) (acc : Collect.Forest Jws) (s : State),
    (∀ a ∈ hs, a ∈ all) → (∀ a b, (a, b) ∈ acc.items → a ∈ all ∧ HonestBranch cfg held e a b) → Sane V jar0 cfg held doc given s →
    SafeS (fun r _ => ∀ f, r = .ok f → ∀ a b, (a, b) ∈ f.items → a ∈ all ∧ HonestBranch cfg held e a b) (overHintsP bp hs acc) s
  | [], acc, s, _, ha, _ => by intro f h; cases h; exact ha
  | a :: hs, acc, s, hh, ha, hk => by
    refine Safe.andThen More.refl More.trans (hb a s hk) hk (fun e _ _ _ _ f h => by cases h) fun b s1 _ hk1 ho => ?_
    refine overHints_sound hb hs _ s1 (fun a h => hh a (by simp [h])) ?_ hk1
    intro a' b' h
    rcases Collect.Forest.items_set_mem h with h | h
    · cases h; exact ⟨hh a (by simp), ho b rfl⟩
    · exact ha a' b' h

theorem collectTree_sound (hR : Reports C W cfg held) (stopAt : String) : ∀ (n : Nat) (e : String) (c : Option Payload) (s : State), Sane V jar0 cfg held doc given s →
    SafeS (fun r _ => ∀ f, r = .ok f → ∃ p, c = some p ∧ Honest cfg held e p f) (collectTreeP C P W stopAt n e c) s
  | 0, _, _, _, _ => by intro f h; cases h
  | n + 1, e, none, _, _ => by intro f h; cases h
  | n + 1, e, some p, s, hk => by
    rw [collectTreeP]
    cases hh : p.hints with
    | none => intro f h; cases h; exact ⟨p, rfl, .nil _ _⟩
    | some hs =>
      simp only
      split
      · intro f h; cases h; exact ⟨p, rfl, .nil _ _⟩
      · refine (overHints_sound (e := e) (all := hs) ?_ hs .nil s (fun _ h => h) (fun a b h => by simp [Collect.Forest.items] at h) hk).imp fun r s' h f hf => ⟨p, rfl, .of_items hh (h f hf)⟩
        intro a s1 hk1
        unfold collectBranchP
        split
        · intro b h; cases h; intro s f h; cases h
        · refine Safe.andThen More.refl More.trans (getStatement_sound hR e a s1) hk1 (fun e _ _ _ _ f h => by cases h) fun o s2 _ hk2 ho => ?_
          cases o with
          | none => intro b h; cases h; intro s f h; cases h
          | some j =>
            simp only
            refine Safe.andThen More.refl More.trans (subscript_sound P.delta W.now a s2) hk2 (fun e _ _ _ _ f h => by cases h) fun c s3 _ hk3 hc => ?_
            refine Safe.andThen More.refl More.trans (collectTree_sound hR stopAt n a (c.map (·.jws.payload)) s3 hk3) hk3 (fun e _ _ _ _ f h => by cases h) fun f s4 _ hk4 hf => ?_
            intro b h
            cases h
            intro s' f' h
            cases h
            obtain ⟨p', h1, h2⟩ := hf f rfl
            cases c with
            | none => cases h1
            | some c =>
              cases h1
              exact ⟨ho j rfl, c.jws, hc c rfl, h2⟩

theorem collect_sound (hR : Reports C W cfg held) (n : Nat) (e stopAt : String) (s : State) :
    SafeS (fun r _ => ∀ f ec, r = .ok (f, ec) → cfg e ec ∧ Honest cfg held e ec.payload f) (collectP C P W n e stopAt) s := by
  have rest : ∀ (j : Jws) (s : State), cfg e j → Sane V jar0 cfg held doc given s → SafeS (fun r _ => ∀ f ec, r = .ok (f, ec) → cfg e ec ∧ Honest cfg held e ec.payload f)
      ((collectTreeP C P W stopAt n e (some j.payload)).andThen fun f => .ret (.ok (f, j))) s := by
    intro j s hj hk
    refine Safe.andThen More.refl More.trans (collectTree_sound hR stopAt n e (some j.payload) s hk) hk (fun e _ _ _ _ f ec h => by cases h) fun f s1 _ _ hf => ?_
    intro f' ec h
    cases h
    obtain ⟨p, h1, h2⟩ := hf f rfl
    cases h1
    exact ⟨hj, h2⟩
  intro s1 _ hk1
  refine ⟨hk1, More.refl _, ?_⟩
  simp only [id]
  have fresh : SafeS (fun r _ => ∀ f ec, r = .ok (f, ec) → cfg e ec ∧ Honest cfg held e ec.payload f)
      (match W.config e with
      | .error e => .ret (.error e.toPy)
      | .ok none => .ret (.error .valueError)
      | .ok (some j) =>
        match selfVerify C W.now j with
        | .error e => .ret (.error e)
        | .ok p => .act (onConfig fun d => d.set e ⟨j⟩) fun _ => (collectTreeP C P W stopAt n e (some p)).andThen fun f => .ret (.ok (f, j))) s1 := by
    cases h1 : W.config e with
    | error x => intro f ec h; cases h
    | ok d =>
      cases d with
      | none => intro f ec h; cases h
      | some j =>
        simp only
        cases h2 : selfVerify C W.now j with
        | error x => intro f ec h; cases h
        | ok p =>
          have := Collect.selfVerify_payload h2
          subst this
          intro s2 _ hk2
          have hj := hR.config e j h1 h2
          exact ⟨hk2.setConfig hj, Threads.Grows.refl _, rest j _ hj (hk2.setConfig hj)⟩
  cases hc : s1.coll.config.get? e with
  | none => exact fresh
  | some c =>
    simp only
    cases Collect.tooOld P W c with
    | error x => intro f ec h; cases h
    | ok b =>
      cases b with
      | true => exact fresh
      | false => exact rest c.jws s1 (hk1.config e c hc) hk1

/-! ### Verification -/

theorem Sane.access {s : State} (h : Sane V jar0 cfg held doc given s) {chain : List Doc} (hd : ∀ j, some j ∈ chain → doc j) {pc : Threads.Pc}
    (hi : Threads.Inv V.L s.jar chain pc) : Sane V jar0 cfg held doc given (onJar (fun jar => (Threads.access V.L chain jar pc).2) s) := by
  have hg := Threads.access_grows V.L chain s.jar pc
  have same : (Threads.access V.L chain s.jar pc).2 = s.jar → Sane V jar0 cfg held doc given (onJar (fun jar => (Threads.access V.L chain jar pc).2) s) := by
    intro e
    have : onJar (fun jar => (Threads.access V.L chain jar pc).2) s = s := by simp only [onJar, e]
    rw [this]; exact h
  cases pc with
  | start => exact same rfl
  | loop ds ves => rcases ds with _ | ⟨_ | j, ds⟩ <;> exact same rfl
  | compare p ks ds ves => exact same rfl
  | done r => exact same rfl
  | add p new ds ves =>
    obtain ⟨pre, j, ks, rfl, g2, g3, ⟨k', g4, g5, g6⟩, g7, g8, g9⟩ := hi
    have hm := hd j (by rw [g2]; simp)
    refine ⟨h.config, h.es, fun e k hk => ?_, fun e he => ?_, fun e tcs he tc htc => (h.store e tcs he tc htc).mono hg⟩
    · replace hk : k ∈ KeyJar.keysOf (s.jar.set j.payload.sub (s.jar.keysOf j.payload.sub ++ new)) e := hk
      rw [keysOf_set] at hk
      split at hk
      · rename_i he
        subst he
        rcases List.mem_append.1 hk with hk | hk
        · exact h.keys _ _ hk
        · exact .declared hm (h.keys _ _ g4) g5 g6 g7 (g9 k hk)
      · exact h.keys _ _ hk
    · replace he : Dict.has (s.jar.set j.payload.sub (s.jar.keysOf j.payload.sub ++ new)) e = true := he
      simp only [Dict.has, Dict.get?_set] at he
      split at he
      · rename_i hs
        exact Or.inr ⟨j, k', hm, h.keys _ _ g4, g5, g6, hs⟩
      · exact h.entities e he

theorem verifyFrom_sound {chain : List Doc} (hd : ∀ j, some j ∈ chain → doc j) : ∀ (n : Nat) (pc : Threads.Pc) (s : State), Threads.Inv V.L s.jar chain pc →
    SafeS (fun r s' => ∀ tc, r = .ok (some tc) → (verifyChain V.L s'.jar chain).1 = .ok (some tc)) (verifyFrom V.L chain n pc) s := by
  intro n
  induction n with
  | zero =>
    intro pc s hi
    cases pc with
    | done r => exact hi
    | _ => intro tc h; cases h
  | succ n ih =>
    intro pc s hi
    have next : SafeS (fun r s' => ∀ tc, r = .ok (some tc) → (verifyChain V.L s'.jar chain).1 = .ok (some tc))
        (.act (onJar fun jar => (Threads.access V.L chain jar pc).2) fun s => verifyFrom V.L chain n (Threads.access V.L chain s.jar pc).1) s := by
      intro s1 hm hk
      have hi1 := hi.mono hm
      exact ⟨hk.access hd hi1, Threads.access_grows V.L chain s1.jar pc, ih _ _ (Threads.access_inv hi1)⟩
    cases pc with
    | done r => exact hi
    | _ => exact next

theorem verifyChains_sound : ∀ (cs : List (List Doc)) (s : State), (∀ c ∈ cs, ∀ j, some j ∈ c → doc j) → Sane V jar0 cfg held doc given s →
    SafeS (fun r s' => ∀ tcs, r = .ok tcs → ∀ tc ∈ tcs, ∃ c ∈ cs, (verifyChain V.L s'.jar c).1 = .ok (some tc)) (verifyChainsP V.L cs) s
  | [], s, _, _ => by intro tcs h; cases h; intro tc h; cases h
  | c :: cs, s, hd, hk => by
    refine Safe.andThen More.refl More.trans (verifyFrom_sound (hd c (by simp)) _ .start s trivial) hk (fun e _ _ _ _ f h => by cases h) fun o s1 _ hk1 ho => ?_
    refine Safe.andThen More.refl More.trans ((verifyChains_sound cs s1 (fun c hc => hd c (by simp [hc])) hk1).keep More.refl More.trans
      (R := fun s' => ∀ tc, o = some tc → (verifyChain V.L s'.jar c).1 = .ok (some tc)) (fun s s' hm h tc htc => verifyChain_mono hm.1 hm.2 (h tc htc))
      (fun tc h => ho tc (by rw [h]))) hk1 (fun e _ _ _ _ f h => by cases h) fun tcs s2 _ _ h2 => ?_
    intro tcs' h tc htc
    cases h
    rcases List.mem_append.1 htc with h | h
    · exact ⟨c, by simp, h2.2 tc (by simpa using h)⟩
    · obtain ⟨c', h3, h4⟩ := h2.1 tcs rfl tc h
      exact ⟨c', by simp [h3], h4⟩

theorem getVerified_sound (hR : Reports V.L.toCrypto W cfg held) (hd1 : ∀ a j, cfg a j → doc j) (hd2 : ∀ k j, held k j → doc j) (e stopAt : String) (s : State) (hk : Sane V jar0 cfg held doc given s) :
    SafeS (fun r s' => ∀ tcs, r = .ok tcs → ∀ tc ∈ tcs, Sound V (fun a e => held (Collect.cacheKey a e)) cfg s'.jar e tc) (getVerifiedP { V with W := W } e stopAt) s := by
  refine Safe.andThen More.refl More.trans (collect_sound hR V.fuel e stopAt s) hk (fun e _ _ _ _ f h => by cases h) fun x s1 _ hk1 hx => ?_
  obtain ⟨f, ec⟩ := x
  obtain ⟨h1, h2⟩ := hx f ec rfl
  have hdocs : ∀ c ∈ (Collect.tree2chains f).map (fun c => c.map some ++ [some ec]), ∃ p, HintPath (fun a e => held (Collect.cacheKey a e)) cfg e ec.payload p ∧
      c = ((p.map (·.2)).reverse ++ [ec]).map some := by
    intro c hc
    obtain ⟨c1, hc1, rfl⟩ := List.mem_map.1 hc
    obtain ⟨q, hq, rfl⟩ := (Collect.tree2chains_mem f c1).1 hc1
    exact ⟨q, h2 q hq, by simp [Collect.chainOf]⟩
  have hsrc : ∀ {e : String} {c : Payload} {p : List (String × Jws)}, HintPath (fun a e => held (Collect.cacheKey a e)) cfg e c p → ∀ x ∈ p, ∃ k, held k x.2 := by
    intro e c p h
    induction h with
    | nil => intro x hx; cases hx
    | cons _ _ h _ _ ih =>
      intro x hx
      rcases List.mem_cons.1 hx with rfl | hx
      · exact ⟨_, h⟩
      · exact ih x hx
  refine Safe.andThen More.refl More.trans (verifyChains_sound _ s1 ?_ hk1) hk1 (fun e _ _ _ _ f h => by cases h) fun tcs s2 _ _ h3 => ?_
  · intro c hc j hj
    obtain ⟨p, hp, rfl⟩ := hdocs c hc
    simp only [List.mem_map, List.mem_append, List.mem_reverse, List.mem_singleton, Option.some.injEq] at hj
    obtain ⟨j', hj | hj, rfl⟩ := hj
    · obtain ⟨x, hx, rfl⟩ := hj
      obtain ⟨k, hk⟩ := hsrc hp x hx
      exact hd2 k _ hk
    · subst hj; exact hd1 _ _ h1
  · intro out ho tc htc
    obtain ⟨tc0, h4, h5⟩ := (applyPolicies_mem ho).1 tc htc
    obtain ⟨c, h6, h7⟩ := h3 tcs rfl tc0 h4
    obtain ⟨p, hp, rfl⟩ := hdocs c h6
    have hc : tc.chain = tc0.chain := by
      obtain ⟨_, _, _, _, ⟨_, _, _, rfl⟩ | ⟨_, _, _, rfl⟩⟩ := applyToChain_ok.1 h5 <;> rfl
    have hc0 := (C42_describes_chain _ _ _ _ h7).1
    exact ⟨ec, p, tc0, h1, hp, by rw [hc, hc0], by rw [hc, hc0]; exact h7, h5⟩

theorem getTrustChains_sound (hR : Reports V.L.toCrypto W cfg held) (hd1 : ∀ a j, cfg a j → doc j) (hd2 : ∀ k j, held k j → doc j) (e : String) (s : State) :
    SafeS (fun r s' => ∀ tcs, r = .ok tcs → ∀ tc ∈ tcs, Vouched V (fun a e => held (Collect.cacheKey a e)) cfg given s'.jar e tc) (getTrustChainsP { V with W := W } e) s := by
  intro s1 _ hk1
  refine ⟨hk1, More.refl _, ?_⟩
  simp only [id]
  cases hs : s1.store.get? e with
  | some tcs => intro tcs' h; cases h; exact hk1.store e tcs hs
  | none =>
    refine Safe.andThen More.refl More.trans (getVerified_sound hR hd1 hd2 e "" s1 hk1) hk1 (fun e _ _ _ _ f h => by cases h) fun tcs s2 _ _ h => ?_
    cases tcs with
    | nil => intro tcs h; cases h; intro tc h; cases h
    | cons tc tcs =>
      intro s3 hm hk3
      have h3 : ∀ tc' ∈ tc :: tcs, Vouched V (fun a e => held (Collect.cacheKey a e)) cfg given s3.jar e tc' := fun tc' h' => Or.inl ((h _ rfl tc' h').mono hm)
      refine ⟨⟨hk3.config, hk3.es, hk3.keys, hk3.entities, ?_⟩, Threads.Grows.refl _, fun tcs' h => by cases h; exact h3⟩
      intro e' tcs' h'
      simp only [Dict.get?_set] at h'
      split at h'
      · rename_i hh; subst hh; cases h'; exact h3
      · exact hk3.store e' tcs' h'

theorem givenChains_sound {chain : List Doc} (hd : ∀ j, some j ∈ chain → doc j) (s : State) (hk : Sane V jar0 cfg held doc given s) :
    SafeS (fun r s' => ∀ tcs, r = .ok tcs → ∀ tc ∈ tcs, ∃ tc0, tc.chain = chain ∧ (verifyChain V.L s'.jar chain).1 = .ok (some tc0) ∧ applyToChain V.E V.K tc0 = .ok tc)
      (givenChainsP V chain) s := by
  refine Safe.andThen More.refl More.trans (verifyChains_sound [chain] s (by simpa using hd) hk) hk (fun e _ _ _ _ f h => by cases h) fun tcs s2 _ _ h3 => ?_
  intro out ho tc htc
  obtain ⟨tc0, h4, h5⟩ := (applyPolicies_mem ho).1 tc htc
  obtain ⟨c, h6, h7⟩ := h3 tcs rfl tc0 h4
  rw [List.mem_singleton] at h6
  subst h6
  have hc : tc.chain = tc0.chain := by
    obtain ⟨_, _, _, _, ⟨_, _, _, rfl⟩ | ⟨_, _, _, rfl⟩⟩ := applyToChain_ok.1 h5 <;> rfl
  exact ⟨tc0, by rw [hc, (C42_describes_chain _ _ _ _ h7).1], h7, h5⟩

/-- What a registration ends with: chains of the client when none was sent along. -/
theorem registration_sound (hR : Reports V.L.toCrypto W cfg held) (hd1 : ∀ a j, cfg a j → doc j) (hd2 : ∀ k j, held k j → doc j) {client : String} {sent : List Doc}
    (hd : ∀ j, some j ∈ sent → doc j) (hg : sent ≠ [] → given client sent.reverse) (s : State) (hk : Sane V jar0 cfg held doc given s) :
    SafeS (fun r s' => ∀ tcs, r = .ok tcs → ∀ tc ∈ tcs, Vouched V (fun a e => held (Collect.cacheKey a e)) cfg given s'.jar client tc ∧
      (sent = [] → Sound V (fun a e => held (Collect.cacheKey a e)) cfg s'.jar client tc) ∧ (sent ≠ [] → Handed V given s'.jar client tc ∧ tc.chain = sent.reverse))
      (registrationP { V with W := W } client sent) s := by
  have first : SafeS (fun r s' => ∀ tcs, r = .ok tcs → ∀ tc ∈ tcs, (sent = [] → Sound V (fun a e => held (Collect.cacheKey a e)) cfg s'.jar client tc) ∧
      (sent ≠ [] → Handed V given s'.jar client tc ∧ tc.chain = sent.reverse)) (if sent.isEmpty then getVerifiedP { V with W := W } client else givenChainsP { V with W := W } sent.reverse) s := by
    cases sent with
    | nil =>
      refine Safe.imp ?_ (getVerified_sound hR hd1 hd2 client "" s hk)
      intro r s' h tcs hr tc htc
      exact ⟨fun _ => h tcs hr tc htc, fun h => absurd rfl h⟩
    | cons d ds =>
      refine Safe.imp ?_ (givenChains_sound (chain := (d :: ds).reverse) (fun j h => hd j (List.mem_reverse.1 h)) s hk)
      intro r s' h tcs hr tc htc
      obtain ⟨tc0, h1, h2, h3⟩ := h tcs hr tc htc
      exact ⟨(fun h => by cases h), fun _ => ⟨⟨tc0, by rw [h1]; exact hg (by simp), by rw [h1]; exact h2, h3⟩, h1⟩⟩
  refine Safe.andThen More.refl More.trans first hk (fun e _ _ _ _ f h => by cases h) fun tcs s2 _ _ h => ?_
  cases tcs with
  | nil => intro tcs h; cases h
  | cons tc tcs =>
    intro s3 hm hk3
    have h3 : ∀ tc' ∈ tc :: tcs, Vouched V (fun a e => held (Collect.cacheKey a e)) cfg given s3.jar client tc' ∧ (sent = [] → Sound V (fun a e => held (Collect.cacheKey a e)) cfg s3.jar client tc') ∧
        (sent ≠ [] → Handed V given s3.jar client tc' ∧ tc'.chain = sent.reverse) := by
      intro tc' h'
      obtain ⟨g1, g2⟩ := h _ rfl tc' h'
      by_cases hs : sent = []
      · exact ⟨Or.inl ((g1 hs).mono hm), fun hs => (g1 hs).mono hm, fun h => absurd hs h⟩
      · exact ⟨Or.inr ((g2 hs).1.mono hm), fun h => absurd h hs, fun hs => ⟨(g2 hs).1.mono hm, (g2 hs).2⟩⟩
    refine ⟨⟨hk3.config, hk3.es, hk3.keys, hk3.entities, ?_⟩, Threads.Grows.refl _, fun tcs' h => by cases h; exact h3⟩
    intro e' tcs' h'
    simp only [Dict.get?_set] at h'
    split at h'
    · rename_i hh; subst hh; cases h'; exact fun tc' h' => (h3 tc' h').1
    · exact hk3.store e' tcs' h'

end

/-! ### C213 -/

/-- What a thread is asked to do: to resolve an entity, by way of the stored chains or not, to verify a chain that was handed in, or to register a client of an
OpenID provider, with the chain sent along (leaf first) or without. -/
inductive Job
  | chains (e : String)
  | verified (e stopAt : String)
  | given (chain : List Doc)
  | register (client : String) (sent : List Doc)

/-- The work it has to do, and the world it does it in. -/
def Job.prog (V : Env) (W : Collect.World) : Job → Prog (Except PyErr (List TrustChain))
  | .chains e => getTrustChainsP { V with W := W } e
  | .verified e stopAt => getVerifiedP { V with W := W } e stopAt
  | .given chain => givenChainsP V chain
  | .register client sent => registrationP { V with W := W } client sent

/-- Threads that do this work. -/
def working (V : Env) (world : Nat → Collect.World) (job : Nat → Job) (s : State) : Sys (Except PyErr (List TrustChain)) := ⟨s, fun i => (job i).prog V (world i)⟩

/-- The documents that come to the knowledge of the threads: configurations found, statements told, what was in the cache and what was handed in. -/
def Seen (V : Env) (world : Nat → Collect.World) (job : Nat → Job) (s0 : State) (j : Jws) : Prop :=
  (∃ a, Found V.L.toCrypto world s0.coll a j) ∨ (∃ k, Held V.L.toCrypto world s0.coll k j) ∨ ∃ i chain, (job i = .given chain ∨ ∃ client, job i = .register client chain) ∧ some j ∈ chain

/-- The chain was sent along by a request in the name of the entity. -/
def Named (job : Nat → Job) (e : String) (chain : List Doc) : Prop := ∃ i sent, job i = .register e sent ∧ sent ≠ [] ∧ chain = sent.reverse

/-- The chain is supported by keys known at the start: every signature in it verifies with a key that goes back to these through documents signed likewise, and its metadata is what the policies in it
make of what its subject declares. `jar` are the keys at the end. -/
structure Supported (V : Env) (world : Nat → Collect.World) (job : Nat → Job) (s0 : State) (jar : KeyJar) (tc : TrustChain) : Prop where
  anchor : BackedEntity V.L s0.jar (Seen V world job s0) tc.anchor
  signed : ∀ j, some j ∈ tc.chain → ∃ k, Backed V.L s0.jar (Seen V world job s0) j.payload.iss k ∧ V.L.usable j k = true ∧ V.L.verifies j k = true
  accepted : ∃ tc0, (verifyChain V.L jar tc.chain).1 = .ok (some tc0) ∧ applyToChain V.E V.K tc0 = .ok tc

/-- The chain is a way up from a configuration of the entity along the authority hints, with statements that the authorities named there made. -/
def Leads (V : Env) (world : Nat → Collect.World) (s0 : State) (e : String) (tc : TrustChain) : Prop :=
  ∃ ec p, Found V.L.toCrypto world s0.coll e ec ∧
    HintPath (fun a e s => Collect.Plain a → Collect.Plain e → s0.coll.es.get? (Collect.cacheKey a e) = some (.stmt s) ∨ Told V.L.toCrypto world s0.coll a e s)
      (Found V.L.toCrypto world s0.coll) e ec.payload p ∧
    tc.chain = ((p.map (·.2)).reverse ++ [ec]).map some ∧ tc.verified = ((p.map (·.2)).reverse ++ [ec]).map (·.payload)

/-- What a thread may say: chains that are supported, and that lead up from the entity asked for or are the chain handed in. What was sent along in the name of an entity may be what is found for it. -/
def Answer (V : Env) (world : Nat → Collect.World) (job : Nat → Job) (s0 : State) (jar : KeyJar) (tc : TrustChain) : Job → Prop
  | .chains e => Supported V world job s0 jar tc ∧ (Leads V world s0 e tc ∨ Named job e tc.chain)
  | .verified e _ => Supported V world job s0 jar tc ∧ Leads V world s0 e tc
  | .given chain => Supported V world job s0 jar tc ∧ tc.chain = chain
  | .register client sent => Supported V world job s0 jar tc ∧ (sent = [] → Leads V world s0 client tc) ∧ (sent ≠ [] → tc.chain = sent.reverse)

theorem _root_.Fed.Chains.HintPath.imp {src src' : String → String → Jws → Prop} {cfg : String → Jws → Prop} (h : ∀ a e s, src a e s → src' a e s) {e : String} {c : Payload} {p : List (String × Jws)}
    (hp : HintPath src cfg e c p) : HintPath src' cfg e c p := by
  induction hp with
  | nil => exact .nil
  | cons h1 h2 h3 h4 _ ih => exact .cons h1 h2 (h _ _ _ h3) h4 ih

theorem statements_somes (l : List Jws) : statements (l.map some) = l := by
  induction l with
  | nil => rfl
  | cons a l ih => simpa [statements] using ih

section
variable {V : Env} {world : Nat → Collect.World} {job : Nat → Job} {s0 : State}

theorem reports (i : Nat) : Reports V.L.toCrypto (world i) (Found V.L.toCrypto world s0.coll) (Held V.L.toCrypto world s0.coll) where
  config a j h1 h2 := Or.inr ⟨i, h1, h2⟩
  fetch a j ep e s h1 h2 h3 := by
    obtain ⟨fe, h4, h5⟩ := Collect.getFetchEndpoint_some h2
    exact Or.inr ⟨a, e, rfl, i, j, fe, ep, h1, h4, h5, h3⟩

/-- What is held by the caches and by the key jar at the start is there. -/
theorem Sane.start (hs : s0.store = []) : Sane V s0.jar (Found V.L.toCrypto world s0.coll) (Held V.L.toCrypto world s0.coll) (Seen V world job s0) (Named job) s0 where
  config e c h := Or.inl h
  es k j h := Or.inl h
  keys e k h := .start h
  entities e h := Or.inl h
  store e tcs h := by rw [hs] at h; cases h

theorem Sane.supported {s : State} (h : Sane V s0.jar (Found V.L.toCrypto world s0.coll) (Held V.L.toCrypto world s0.coll) (Seen V world job s0) (Named job) s) {tc tc0 : TrustChain}
    (hd : ∀ j, some j ∈ tc.chain → Seen V world job s0 j) (hv : (verifyChain V.L s.jar tc.chain).1 = .ok (some tc0)) (ha : applyToChain V.E V.K tc0 = .ok tc) :
    Supported V world job s0 s.jar tc := by
  have hanchor : tc.anchor = tc0.anchor := by
    obtain ⟨_, _, _, _, ⟨_, _, _, rfl⟩ | ⟨_, _, _, rfl⟩⟩ := applyToChain_ok.1 ha <;> rfl
  refine ⟨?_, ?_, tc0, hv, ha⟩
  · obtain ⟨j, rest, k, h1, h2, h3, -⟩ := C35_known_anchor _ _ _ _ hv
    rw [hanchor, h2]
    exact h.entities _ h3
  · have mem : ∀ j, j ∈ statements tc.chain ↔ some j ∈ tc.chain := by intro j; simp [statements]
    have key : ∀ n (l : List Jws) (j : Jws) (r : List Jws), l.length = n → statements tc.chain = l ++ j :: r →
        ∃ k, Backed V.L s0.jar (Seen V world job s0) j.payload.iss k ∧ V.L.usable j k = true ∧ V.L.verifies j k = true := by
      intro n
      induction n using Nat.strongRecOn with
      | _ n ih =>
        intro l j r hl hs
        obtain ⟨k, hu, hve, hk | ⟨j', hj'm, hsub, ks, hks, hkk⟩⟩ := C37_keys_from_above _ _ _ _ hv l j r hs
        · exact ⟨k, h.keys _ _ hk, hu, hve⟩
        · obtain ⟨l1, l2, rfl⟩ := List.append_of_mem hj'm
          obtain ⟨k', hk', hu', hv'⟩ := ih l1.length (by rw [← hl]; simp) l1 j' (l2 ++ j :: r) rfl (by rw [hs]; simp)
          refine ⟨k, ?_, hu, hve⟩
          rw [← hsub]
          exact .declared (hd j' ((mem j').1 (by rw [hs]; simp))) hk' hu' hv' hks hkk
    intro j hj
    obtain ⟨l, r, hs⟩ := List.append_of_mem ((mem j).2 hj)
    exact key _ l j r rfl hs

theorem Sane.leads {s : State} (h : Sane V s0.jar (Found V.L.toCrypto world s0.coll) (Held V.L.toCrypto world s0.coll) (Seen V world job s0) (Named job) s) {e : String} {tc : TrustChain}
    (hs : Sound V (fun a e => Held V.L.toCrypto world s0.coll (Collect.cacheKey a e)) (Found V.L.toCrypto world s0.coll) s.jar e tc) :
    Supported V world job s0 s.jar tc ∧ Leads V world s0 e tc := by
  obtain ⟨ec, p, tc0, h1, h2, h3, h4, h5⟩ := hs
  have hsrc : ∀ {e : String} {c : Payload} {p : List (String × Jws)}, HintPath (fun a e => Held V.L.toCrypto world s0.coll (Collect.cacheKey a e)) (Found V.L.toCrypto world s0.coll) e c p →
      ∀ x ∈ p, ∃ k, Held V.L.toCrypto world s0.coll k x.2 := by
    intro e c p h
    induction h with
    | nil => intro x hx; cases hx
    | cons _ _ h _ _ ih =>
      intro x hx
      rcases List.mem_cons.1 hx with rfl | hx
      · exact ⟨_, h⟩
      · exact ih x hx
  refine ⟨h.supported ?_ h4 h5, ec, p, h1, h2.imp ?_, h3, ?_⟩
  · intro j hj
    rw [h3] at hj
    simp only [List.mem_map, List.mem_append, List.mem_reverse, List.mem_singleton, Option.some.injEq] at hj
    obtain ⟨j', hj | hj, rfl⟩ := hj
    · obtain ⟨x, hx, rfl⟩ := hj
      exact Or.inr (Or.inl (hsrc h2 x hx))
    · subst hj; exact Or.inl ⟨_, h1⟩
  · rintro a e s (h | ⟨a', e', h6, h7⟩) ha he
    · exact Or.inl h
    · obtain ⟨rfl, rfl⟩ := Collect.cacheKey_inj ha he h6
      exact Or.inr h7
  · have hver : tc.verified = tc0.verified := by
      obtain ⟨_, _, _, _, ⟨_, _, _, rfl⟩ | ⟨_, _, _, rfl⟩⟩ := applyToChain_ok.1 h5 <;> rfl
    rw [hver, (C42_describes_chain _ _ _ _ h4).2.1, h3, statements_somes]

theorem Sane.vouched {s : State} (h : Sane V s0.jar (Found V.L.toCrypto world s0.coll) (Held V.L.toCrypto world s0.coll) (Seen V world job s0) (Named job) s) {e : String} {tc : TrustChain}
    (hs : Vouched V (fun a e => Held V.L.toCrypto world s0.coll (Collect.cacheKey a e)) (Found V.L.toCrypto world s0.coll) (Named job) s.jar e tc) :
    Supported V world job s0 s.jar tc ∧ (Leads V world s0 e tc ∨ Named job e tc.chain) := by
  rcases hs with hs | ⟨tc0, h1, h2, h3⟩
  · exact ⟨(h.leads hs).1, Or.inl (h.leads hs).2⟩
  · refine ⟨h.supported (fun j hj => ?_) h2 h3, Or.inr h1⟩
    obtain ⟨i, sent, g1, -, g3⟩ := h1
    rw [g3] at hj
    exact Or.inr (Or.inr ⟨i, sent, Or.inr ⟨e, g1⟩, by simpa using hj⟩)

theorem working_safe (hs : s0.store = []) (ts : List Nat) :
    Sane V s0.jar (Found V.L.toCrypto world s0.coll) (Held V.L.toCrypto world s0.coll) (Seen V world job s0) (Named job) (turns (working V world job s0) ts).shared ∧
    Threads.Grows s0.jar (turns (working V world job s0) ts).shared.jar ∧
    ∀ i tcs, (turns (working V world job s0) ts).left i = .ret (.ok tcs) → ∀ tc ∈ tcs, Answer V world job s0 (turns (working V world job s0) ts).shared.jar tc (job i) := by
  have start : Sane V s0.jar (Found V.L.toCrypto world s0.coll) (Held V.L.toCrypto world s0.coll) (Seen V world job s0) (Named job) s0 := .start hs
  obtain ⟨h1, h2, h3⟩ := Safe.turns (I := Sane V s0.jar (Found V.L.toCrypto world s0.coll) (Held V.L.toCrypto world s0.coll) (Seen V world job s0) (Named job)) (G := More) More.refl More.trans
    (y := working V world job s0) (ts := ts)
    (Q := fun i (r : Except PyErr (List TrustChain)) s' => ∀ tcs, r = .ok tcs → ∀ tc ∈ tcs, match job i with
      | .chains e => Vouched V (fun a e => Held V.L.toCrypto world s0.coll (Collect.cacheKey a e)) (Found V.L.toCrypto world s0.coll) (Named job) s'.jar e tc
      | .verified e _ => Sound V (fun a e => Held V.L.toCrypto world s0.coll (Collect.cacheKey a e)) (Found V.L.toCrypto world s0.coll) s'.jar e tc
      | .given chain => ∃ tc0, tc.chain = chain ∧ (verifyChain V.L s'.jar chain).1 = .ok (some tc0) ∧ applyToChain V.E V.K tc0 = .ok tc
      | .register client sent => Vouched V (fun a e => Held V.L.toCrypto world s0.coll (Collect.cacheKey a e)) (Found V.L.toCrypto world s0.coll) (Named job) s'.jar client tc ∧
          (sent = [] → Sound V (fun a e => Held V.L.toCrypto world s0.coll (Collect.cacheKey a e)) (Found V.L.toCrypto world s0.coll) s'.jar client tc) ∧
          (sent ≠ [] → Handed V (Named job) s'.jar client tc ∧ tc.chain = sent.reverse))
    (fun i r s s' hm h tcs hr tc htc => by
      have := h tcs hr tc htc
      revert this
      cases job i with
      | chains e => exact fun h => h.mono hm
      | verified e _ => exact fun h => h.mono hm
      | given chain => exact fun ⟨tc0, g1, g2, g3⟩ => ⟨tc0, g1, verifyChain_mono hm.1 hm.2 g2, g3⟩
      | register client sent => exact fun ⟨g1, g2, g3⟩ => ⟨g1.mono hm, fun h => (g2 h).mono hm, fun h => ⟨(g3 h).1.mono hm, (g3 h).2⟩⟩) start fun i => by
    have hd1 : ∀ a j, Found V.L.toCrypto world s0.coll a j → Seen V world job s0 j := fun a j h => Or.inl ⟨a, h⟩
    have hd2 : ∀ k j, Held V.L.toCrypto world s0.coll k j → Seen V world job s0 j := fun k j h => Or.inr (Or.inl ⟨k, h⟩)
    simp only [working]
    cases hj : job i with
    | chains e => exact getTrustChains_sound (reports i) hd1 hd2 e s0
    | verified e stopAt => exact getVerified_sound (reports i) hd1 hd2 e stopAt s0 start
    | given chain => exact givenChains_sound (fun j h => Or.inr (Or.inr ⟨i, chain, Or.inl hj, h⟩)) s0 start
    | register client sent => exact registration_sound (reports i) hd1 hd2 (fun j h => Or.inr (Or.inr ⟨i, sent, Or.inr ⟨client, hj⟩, h⟩)) (fun h => ⟨i, sent, hj, h, rfl⟩) s0 start
  refine ⟨h1, h2, fun i tcs hi tc htc => ?_⟩
  have h4 := h3 i
  rw [hi] at h4
  have h5 := h4 tcs rfl tc htc
  revert h5
  cases hj : job i with
  | chains e => exact fun h => h1.vouched h
  | verified e _ => exact fun h => h1.leads h
  | given chain =>
    rintro ⟨tc0, rfl, g2, g3⟩
    exact ⟨h1.supported (fun j h => Or.inr (Or.inr ⟨i, _, Or.inl hj, h⟩)) g2 g3, rfl⟩
  | register client sent => exact fun ⟨g1, g2, g3⟩ => ⟨(h1.vouched g1).1, fun h => (h1.leads (g2 h)).2, fun h => (g3 h).2⟩

end

/-- C213: whatever the federation says, whatever the threads are asked to do and in whatever order they get their turns, each chain a thread ends with is supported by the keys known at the start,
and leads up from the entity asked for along its authority hints, or is the chain handed in. -/
theorem C213_sound (V : Env) (world : Nat → Collect.World) (job : Nat → Job) (s0 : State) (hs : s0.store = []) (ts : List Nat) (i : Nat) (tcs : List TrustChain)
    (h : (turns (working V world job s0) ts).left i = .ret (.ok tcs)) (tc : TrustChain) (htc : tc ∈ tcs) :
    Answer V world job s0 (turns (working V world job s0) ts).shared.jar tc (job i) := (working_safe hs ts).2.2 i tcs h tc htc

/-- The same of the chains that are stored, at any time. -/
theorem C213_stored (V : Env) (world : Nat → Collect.World) (job : Nat → Job) (s0 : State) (hs : s0.store = []) (ts : List Nat) (e : String) (tcs : List TrustChain)
    (h : (turns (working V world job s0) ts).shared.store.get? e = some tcs) (tc : TrustChain) (htc : tc ∈ tcs) :
    Supported V world job s0 (turns (working V world job s0) ts).shared.jar tc ∧ (Leads V world s0 e tc ∨ Named job e tc.chain) :=
  (working_safe hs ts).1.vouched ((working_safe hs ts).1.store e tcs h tc htc)

/-- No key is lost, and none is there that is not backed. -/
theorem C213_keys (V : Env) (world : Nat → Collect.World) (job : Nat → Job) (s0 : State) (hs : s0.store = []) (ts : List Nat) (e : String) (k : Key) :
    (k ∈ s0.jar.keysOf e → k ∈ (turns (working V world job s0) ts).shared.jar.keysOf e) ∧
    (k ∈ (turns (working V world job s0) ts).shared.jar.keysOf e → Backed V.L s0.jar (Seen V world job s0) e k) :=
  ⟨(working_safe hs ts).2.1.1 e k, (working_safe hs ts).1.keys e k⟩

namespace Ex
/-- Two threads resolve `leaf`, by way of the stored chains and without, and one registers it, while others verify a chain that says `leaf` is its own anchor. -/
def jobs : Nat → Job
  | 0 => .chains "https://leaf"
  | 1 => .verified "https://leaf" ""
  | 3 => .register "https://leaf" []
  | _ => .given [some (Chains.Ex.D109.cfg "https://leaf")]

def three : Sys (Except PyErr (List TrustChain)) :=
  working (Chains.Ex.env (Chains.Ex.F109.at 0)) (fun _ => Chains.Ex.F109.at 0) jobs { jar := [("https://ta", [1])] }
end Ex

/-- The hypotheses of the theorems are met by threads that end with chains, and the chain handed in is refused when `leaf` has not been resolved before. -/
example : (∃ ts, Ex.found ((turns Ex.three ts).left 0) = some 2 ∧ Ex.found ((turns Ex.three ts).left 1) = some 2 ∧ Ex.found ((turns Ex.three ts).left 2) = some 0 ∧ Ex.found ((turns Ex.three ts).left 3) = some 2) ∧
    ∀ ts tcs, (turns Ex.three ts).left 0 = .ret (.ok tcs) → ∀ tc ∈ tcs,
      Leads (Chains.Ex.env (Chains.Ex.F109.at 0)) (fun _ => Chains.Ex.F109.at 0) { jar := [("https://ta", [1])] } "https://leaf" tc := by
  refine ⟨⟨[2, 2, 2] ++ List.replicate 100 0 ++ List.replicate 100 1 ++ List.replicate 100 3, by decide +kernel⟩, fun ts tcs h tc htc => ?_⟩
  rcases (C213_sound _ _ _ _ rfl ts 0 tcs h tc htc).2 with h | ⟨i, sent, h1, h2, -⟩
  · exact h
  · match i, h1 with
    | 3, h1 => injection h1 with _ h1; exact absurd h1.symm h2

end Fed.Chains.AtOnce
