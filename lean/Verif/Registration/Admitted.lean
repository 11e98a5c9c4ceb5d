import Verif.Registration.Response
import Verif.Registration.Addresses
import Verif.Chains.Upheld
import Verif.Chains.Reissued
import Verif.Chains.Withdrawn
import Verif.Client.Welcomed
import Verif.Server.Standing
/-
C204: a member of a federation run with this software is let in by a server it has not registered with. The model of automatic registration (Registration/Automatic, Registration/Response) composed
with the members' servers (Chains/Served), over any history of the server.
-/
namespace Fed.Registration
open Fed Verify Chains Client

/-- A server of the federation: its federation part, the registration types it states and what its endpoints use for the registration proper. -/
structure Host where
  V : Chains.Env
  supported : Option (List String)
  register : Kind → Server → Dict Val → Option String × Server

/-- What an endpoint of the server has to do with at time `t`. -/
def Host.env (H : Host) (F : Int → Collect.World) (t : Int) (kind : Kind) : AutoEnv := ⟨{ H.V with W := F t }, H.supported, H.register kind⟩

/-- What reaches the server: an authorization request at one of the endpoints, or a token signed by an issuer whose keys are looked up. -/
structure Visit where
  time : Int
  kind : Kind
  lookup : Bool
  entity : String
  provided : List Doc := []

/-- What the server keeps afterwards (`find_client_keys` and `client_authentication`, oauth2/authorization.py 48-121, pushed_authorization.py 42-114, oidc/authorization.py 48-127). -/
def Host.visit (H : Host) (F : Int → Collect.World) (st : AppState) (v : Visit) : AppState :=
  if v.lookup then (findClientKeys (H.env F v.time v.kind) v.kind st v.entity).2 else (clientAuthentication (H.env F v.time v.kind) v.kind st v.entity v.provided).2

/-- What the server keeps after a history. -/
def Host.visits (H : Host) (F : Int → Collect.World) (st : AppState) (vs : List Visit) : AppState := vs.foldl (H.visit F) st

/-! ### What a history does to the federation part -/

/-- The caches are those of collections, some of those at the times and for the entities `ts`, and the key jar has lost nothing. -/
def Collected (V : Chains.Env) (F : Int → Collect.World) (jar : KeyJar) (ts : List (Int × String)) (fed : Chains.State) : Prop :=
  Has jar fed.jar ∧ ∃ h : List Collect.FRun, fed.coll = Collect.runAll V.L.toCrypto V.P (h.map fun r => ⟨F r.time, r.fuel, r.entity, r.stopAt⟩) ∧
    (h.map fun r => (r.time, r.entity)).Sublist ts

theorem Collected.more {V : Chains.Env} {F : Int → Collect.World} {jar : KeyJar} {ts : List (Int × String)} {fed : Chains.State} (h : Collected V F jar ts fed) (us : List (Int × String)) :
    Collected V F jar (ts ++ us) fed := by
  obtain ⟨h0, hs, h1, h2⟩ := h
  exact ⟨h0, hs, h1, h2.trans (List.sublist_append_left _ _)⟩

theorem has_verifyChains (L : Lib) : ∀ (cs : List (List Doc)) (jar : KeyJar), Has jar (Chains.verifyChains L cs jar).2
  | [], jar => Has.refl jar
  | c :: cs, jar => by
    have h := has_verifyChain L jar c
    unfold Chains.verifyChains
    generalize verifyChain L jar c = r at h ⊢
    obtain ⟨r1, jar1⟩ := r
    cases r1 with
    | error e => exact h
    | ok o =>
      have h2 := has_verifyChains L cs jar1
      cases o <;> simp only <;> (generalize Chains.verifyChains L cs jar1 = r at h2 ⊢; obtain ⟨r1, jar2⟩ := r; cases r1 <;> exact h.trans h2)

theorem has_getVerified (V : Chains.Env) (fed : Chains.State) (entity stopAt : String) : Has fed.jar (Chains.getVerified V fed entity stopAt).2.jar := by
  unfold Chains.getVerified
  generalize Collect.collect V.L.toCrypto V.P V.W V.fuel fed.coll entity stopAt = r
  obtain ⟨r1, coll⟩ := r
  rcases r1 with e | ⟨f, ec⟩
  · exact Has.refl _
  · simp only
    have h := has_verifyChains V.L ((Collect.tree2chains f).map fun c => c.map some ++ [some ec]) fed.jar
    generalize Chains.verifyChains V.L ((Collect.tree2chains f).map fun c => c.map some ++ [some ec]) fed.jar = r at h ⊢
    obtain ⟨r1, jar⟩ := r
    cases r1 with
    | error e => exact h
    | ok tcs =>
      simp only
      cases Chains.applyPolicies V.E V.K tcs <;> exact h

theorem Collected.chains {H : Host} {F : Int → Collect.World} {jar : KeyJar} {ts : List (Int × String)} {fed : Chains.State} (h : Collected H.V F jar ts fed) (t : Int) (kind : Kind) (entity : String)
    (provided : List Doc) : Collected H.V F jar (ts ++ [(t, entity)]) (registrationChains (H.env F t kind) fed entity provided).2 := by
  unfold registrationChains
  split
  · obtain ⟨h0, hs, h1, h2⟩ := h
    refine ⟨h0.trans (has_getVerified _ _ _ _), hs ++ [⟨t, H.V.fuel, entity, ""⟩], ?_, ?_⟩
    · rw [getVerified_coll, h1]
      simp [Collect.runAll, Host.env, List.foldl_append]
    · rw [List.map_append]
      exact h2.append (List.Sublist.refl _)
  · obtain ⟨h0, hs, h1, h2⟩ := h.more [(t, entity)]
    have hj := has_verifyChains (H.env F t kind).V.L [provided.reverse] fed.jar
    generalize Chains.verifyChains (H.env F t kind).V.L [provided.reverse] fed.jar = r at hj ⊢
    obtain ⟨r1, jar1⟩ := r
    cases r1 <;> exact ⟨h0.trans hj, hs, h1, h2⟩

theorem Collected.automatic {H : Host} {F : Int → Collect.World} {jar : KeyJar} {ts : List (Int × String)} {st : AppState} (h : Collected H.V F jar ts st.fed) (t : Int) (kind : Kind)
    (entity : String) (provided : List Doc) : Collected H.V F jar (ts ++ [(t, entity)]) (doAutomatic (H.env F t kind) kind st entity provided).2.fed := by
  have h1 := h.chains t kind entity provided
  unfold doAutomatic
  generalize registrationChains (H.env F t kind) st.fed entity provided = r at h1 ⊢
  obtain ⟨r1, fed⟩ := r
  rcases r1 with e | _ | ⟨tc, tcs⟩
  · exact h1
  · exact h1
  · have h2 : Collected H.V F jar (ts ++ [(t, entity)]) (if kind = .oidc then { fed with store := fed.store.set entity (tc :: tcs) } else fed) := by split <;> exact h1
    simp only
    generalize (if kind = .oidc then { fed with store := fed.store.set entity (tc :: tcs) } else fed) = fed' at h2 ⊢
    cases tc.metadata.get? kind.leafType with
    | none => exact h2
    | some v =>
      cases v with
      | obj md =>
        simp only
        exact h2
      | _ => exact h2

theorem Collected.authentication {H : Host} {F : Int → Collect.World} {jar : KeyJar} {ts : List (Int × String)} {st : AppState} (h : Collected H.V F jar ts st.fed) (t : Int) (kind : Kind)
    (entity : String) (provided : List Doc) : Collected H.V F jar (ts ++ [(t, entity)]) (clientAuthentication (H.env F t kind) kind st entity provided).2.fed := by
  unfold clientAuthentication
  split
  · exact h.more _
  · cases automaticSupported kind (H.env F t kind).supported with
    | error e => exact h.more _
    | ok b =>
      cases b with
      | false => exact h.more _
      | true =>
        simp only
        have h1 := Collected.automatic (st := { st with srv := { st.srv with cdb := st.srv.cdb.filter fun p => p.1 ≠ entity } }) h t kind entity provided
        generalize doAutomatic (H.env F t kind) kind { st with srv := { st.srv with cdb := st.srv.cdb.filter fun p => p.1 ≠ entity } } entity provided = r at h1 ⊢
        obtain ⟨r1, st1⟩ := r
        rcases r1 with e | _ | rid
        · exact h1
        · exact h1
        · simp only
          generalize alsoKnownAs kind st1.srv.cdb entity rid = r
          obtain ⟨r1, cdb⟩ := r
          cases r1 <;> exact h1

theorem Collected.visits {H : Host} {F : Int → Collect.World} {jar : KeyJar} : ∀ {vs : List Visit} {ts : List (Int × String)} {st : AppState}, Collected H.V F jar ts st.fed →
    Collected H.V F jar (ts ++ vs.map fun v => (v.time, v.entity)) (H.visits F st vs).fed
  | [], ts, st, h => by simpa [Host.visits] using h
  | v :: vs, ts, st, h => by
    have h1 : Collected H.V F jar (ts ++ [(v.time, v.entity)]) (H.visit F st v).fed := by
      unfold Host.visit
      split
      · exact h.automatic _ _ _ _
      · exact h.authentication _ _ _ _
    have := Collected.visits (vs := vs) h1
    simpa [Host.visits] using this

/-- What the server has collected after the requests that have reached it: for the entities, and at the times, of some of the requests, in their order. -/
theorem collected_visits {H : Host} {F : Int → Collect.World} {st0 : AppState} (h0 : st0.fed.coll = {}) (vs : List Visit) :
    Has st0.fed.jar (H.visits F st0 vs).fed.jar ∧ ∃ h : List Collect.FRun, (H.visits F st0 vs).fed.coll = Collect.runAll H.V.L.toCrypto H.V.P (h.map fun r => ⟨F r.time, r.fuel, r.entity, r.stopAt⟩) ∧
      (∀ R : Int → Int → Prop, (vs.Pairwise fun a b => R a.time b.time) → h.Pairwise fun a b => R a.time b.time) ∧ ∀ r ∈ h, ∃ v ∈ vs, v.time = r.time ∧ v.entity = r.entity := by
  obtain ⟨h1, h, h2, h3⟩ := Collected.visits (H := H) (F := F) (vs := vs) (ts := []) (st := st0) ⟨Has.refl _, [], h0, by simp⟩
  refine ⟨h1, h, h2, fun R hR => ?_, fun r hr => ?_⟩
  · rw [List.nil_append] at h3
    have : (vs.map fun v => (v.time, v.entity)).Pairwise fun a b => R a.1 b.1 := List.pairwise_map.2 hR
    have h4 := this.sublist h3
    rw [List.pairwise_map] at h4
    exact h4
  · have := h3.subset (List.mem_map.2 ⟨r, hr, rfl⟩)
    rw [List.nil_append] at this
    obtain ⟨v, hv, e⟩ := List.mem_map.1 this
    exact ⟨v, hv, congrArg Prod.fst e, congrArg Prod.snd e⟩

/-! ### What lets a client in -/

/-- With chains whose first has metadata of the right type, and a registration that goes through, a client that is to be registered is let in, and known afterwards. -/
theorem clientAuthentication_admits {A : AutoEnv} {kind : Kind} {st : AppState} {cid : String} {provided : List Doc} {tc : TrustChain} {tcs : List TrustChain} {md : Dict Val} {c : String} {S' : Server}
    (hs : Settled kind (st.srv.cdb.get? cid) = false) (ha : ∃ l, A.supported = some l ∧ "automatic" ∈ l) (hr : (registrationChains A st.fed cid provided).1 = .ok (tc :: tcs))
    (hm : tc.metadata.get? kind.leafType = some (.obj md))
    (hg : A.register (importClientKeys md { st.srv with cdb := st.srv.cdb.filter fun p => p.1 ≠ cid } cid) (Dict.set md "client_id" (.str cid)) = (some c, S')) (hk : (S'.cdb.get? c).isSome = true) :
    (clientAuthentication A kind st cid provided).1 = .ok (some c) ∧ (clientAuthentication A kind st cid provided).2.srv.keys = S'.keys ∧
    (∃ info, S'.cdb.get? c = some info ∧ ∃ info', (clientAuthentication A kind st cid provided).2.srv.cdb.get? cid = some info' ∧ (clientAuthentication A kind st cid provided).2.srv.cdb.get? c = some info' ∧
      ∀ k, k ≠ "automatic_registered" → k ≠ "entity_id" → Dict.get? info' k = info.get? k) ∧
    (kind = .oidc → (clientAuthentication A kind st cid provided).2.fed.store.get? cid = some (tc :: tcs)) := by
  obtain ⟨l, hl, hmem⟩ := ha
  have hsup : automaticSupported kind A.supported = .ok true := by simp [automaticSupported, hl, hmem]
  obtain ⟨info, hinfo⟩ := Option.isSome_iff_exists.1 hk
  unfold clientAuthentication
  rw [if_neg (by simp [hs]), hsup]
  simp only
  unfold doAutomatic
  generalize registrationChains A st.fed cid provided = r at hr ⊢
  obtain ⟨r1, fed⟩ := r
  simp only at hr
  subst hr
  simp only [hm, hg]
  unfold alsoKnownAs
  rw [hinfo]
  by_cases ho : kind = .oidc
  · simp only [if_pos ho]
    by_cases hc : c = cid
    · subst hc
      simp only [if_true]
      exact ⟨trivial, trivial, ⟨info, rfl, _, Dict.get?_set_self _ _ _, Dict.get?_set_self _ _ _, fun k h1 _ => Dict.get?_set_ne _ _ (Ne.symm h1)⟩, fun _ => Dict.get?_set_self _ _ _⟩
    · simp only [if_neg hc]
      refine ⟨trivial, trivial, ⟨info, rfl, _, Dict.get?_set_self _ _ _, ?_, fun k h1 h2 => ?_⟩, fun _ => Dict.get?_set_self _ _ _⟩
      · rw [Dict.get?_set_ne _ _ (Ne.symm hc), Dict.get?_set_self]
      · rw [Dict.get?_set_ne _ _ (Ne.symm h2), Dict.get?_set_ne _ _ (Ne.symm h1)]
  · simp only [if_neg ho]
    by_cases hc : c = cid
    · subst hc
      simp only [if_true]
      exact ⟨trivial, trivial, ⟨info, rfl, info, hinfo, hinfo, fun _ _ _ => rfl⟩, fun h => absurd h ho⟩
    · simp only [if_neg hc]
      refine ⟨trivial, trivial, ⟨info, rfl, _, Dict.get?_set_self _ _ _, ?_, fun k h1 h2 => Dict.get?_set_ne _ _ (Ne.symm h2)⟩, fun h => absurd h ho⟩
      rw [Dict.get?_set_ne _ _ (Ne.symm hc), Dict.get?_set_self]

/-! ## C204 -/

/-- What is registered of an entity with metadata `md` of type `t` under the ways up `p`: the claims no authority on that way up has a policy for, as they are, and the others as the policies want them. -/
def Suits (D : Directory) (want : String → String → Policy.Want) (entity t : String) (md : Policy.Metadata) (p : List String) (md' : Dict Val) : Prop :=
  (∀ s ∈ stmtsOf D entity p, ∀ c ∈ ((toP s.payload).rule t).policy.keys, (want t c).is (Dict.get? md' c)) ∧
  ∀ c v, md.get? c = some v → (∀ s ∈ stmtsOf D entity p, c ∉ ((toP s.payload).rule t).policy.keys) → Dict.get? md' c = some v

theorem Suits.of {D : Directory} {want : String → String → Policy.Want} {entity t : String} {md : Policy.Metadata} {p : List String} {result : Dict Val}
    (h : AsDeclared want ((stmtsOf D entity p).map (·.payload)) (D.cfg entity).payload result) (hmd : (D.cfg entity).payload.md.get? t = some md) :
    ∃ md', result.get? t = some (.obj md') ∧ Suits D want entity t md p md' := by
  obtain ⟨m, h1, h2, h3⟩ := h t md hmd
  refine ⟨m, h1, fun s hs => h2 s.payload (List.mem_map.2 ⟨s, hs, rfl⟩), fun c v hc hn => h3 c v hc ?_⟩
  intro s hs
  obtain ⟨s', hs', rfl⟩ := List.mem_map.1 hs
  exact hn s' hs'

/-- The registration proper takes a client with these metadata, and keeps it under the id it answers with. -/
def Takes (H : Host) (kind : Kind) (me : String) (md : Dict Val) : Prop :=
  ∀ S, ∃ c S', H.register kind S (Dict.set md "client_id" (.str me)) = (some c, S') ∧ (S'.cdb.get? c).isSome = true

/-- How a client `me` with metadata `md` is let in by the server `H` that has got to the state `st`: at once, if it is known and needs no new registration; or it is registered with what the authorities
above it leave of its metadata, along one of its ways up, its keys having been recorded before. Either way it is known afterwards, both under the id it came with and under the one it goes on with. -/
def LetIn (H : Host) (F : Int → Collect.World) (D : Directory) (want : String → String → Policy.Want) (now : Int) (kind : Kind) (st : AppState) (me : String) (md : Policy.Metadata)
    (provided : List Doc) (ways : List String → Prop) : Prop :=
  (∃ info, st.srv.cdb.get? me = some info ∧ (kind = .oidc → info.get? "automatic_registered" = none) ∧
    clientAuthentication (H.env F now kind) kind st me provided = (.ok (some me), st)) ∨
  ∃ c st' p md' S', clientAuthentication (H.env F now kind) kind st me provided = (.ok (some c), st') ∧ Up D me p ∧ ways p ∧ Suits D want me kind.leafType md p md' ∧
    H.register kind (importClientKeys md' { st.srv with cdb := st.srv.cdb.filter fun x => x.1 ≠ me } me) (Dict.set md' "client_id" (.str me)) = (some c, S') ∧ st'.srv.keys = S'.keys ∧
    (∃ info info', S'.cdb.get? c = some info ∧ st'.srv.cdb.get? me = some info' ∧ st'.srv.cdb.get? c = some info' ∧
      ∀ k, k ≠ "automatic_registered" → k ≠ "entity_id" → Dict.get? info' k = info.get? k) ∧
    (kind = .oidc → ∃ tc tcs, st'.fed.store.get? me = some (tc :: tcs) ∧ p.getLast? = some tc.anchor)

theorem letIn_of {H : Host} {F : Int → Collect.World} {D : Directory} {want : String → String → Policy.Want} {now : Int} {kind : Kind} {st : AppState} {me : String} {md : Policy.Metadata}
    {provided : List Doc} {ways : List String → Prop} (hmd : (D.cfg me).payload.md.get? kind.leafType = some md) (ha : ∃ l, H.supported = some l ∧ "automatic" ∈ l)
    (hr : ∃ tc tcs p, (registrationChains (H.env F now kind) st.fed me provided).1 = .ok (tc :: tcs) ∧ Up D me p ∧ ways p ∧ p.getLast? = some tc.anchor ∧
      AsDeclared want ((stmtsOf D me p).map (·.payload)) (D.cfg me).payload tc.metadata)
    (ht : ∀ p md', Up D me p → Suits D want me kind.leafType md p md' → Takes H kind me md') : LetIn H F D want now kind st me md provided ways := by
  cases hs : Settled kind (st.srv.cdb.get? me) with
  | true =>
    cases hc : st.srv.cdb.get? me with
    | none => rw [hc] at hs; cases hs
    | some info =>
      rw [hc] at hs
      have ho : kind = .oidc → info.get? "automatic_registered" = none := by
        intro hk
        simp only [Settled, hk, decide_true, Bool.true_and, Bool.not_eq_true'] at hs
        cases hi : info.get? "automatic_registered" with
        | none => rfl
        | some v => exact absurd hs (by simp [Dict.has, hi])
      exact .inl ⟨info, hc, ho, C64_known_partial _ kind st me provided info hc ho⟩
  | false =>
    obtain ⟨tc, tcs, p, h1, h2, h3, h3', h4⟩ := hr
    obtain ⟨md', h5, h6⟩ := Suits.of h4 hmd
    obtain ⟨c, S', h7, h8⟩ := ht p md' h2 h6 (importClientKeys md' { st.srv with cdb := st.srv.cdb.filter fun x => x.1 ≠ me } me)
    obtain ⟨g1, g2, ⟨info, g3, info', g4, g5, g6⟩, g7⟩ := clientAuthentication_admits (A := H.env F now kind) hs ha h1 h5 h7 h8
    refine .inr ⟨c, (clientAuthentication (H.env F now kind) kind st me provided).2, p, md', S', Prod.ext g1 rfl, h2, h3, h6, h7, g2, ⟨info, info', g3, g4, g5, g6⟩, fun hk => ⟨tc, tcs, g7 hk, h3'⟩⟩

/-- A client and a server of a federation of this software (see C133). The server began with the keys of its anchors, and requests have reached it since, `vs`; now
a client comes that publishes metadata of the type the endpoint is for, within the constraints and policies of all authorities above it, with which the registration proper takes it. The
server states that it supports automatic registration. -/
structure Comes (H : Host) (J : Jose) (member : String → Option Member) (host : Val → Option String) (issued now : Int) (st0 : AppState) (vs : List Visit) (kind : Kind) (me : String) (md : Policy.Metadata)
    (rank : String → Nat) (want : String → String → Policy.Want) (M : String → Policy.Metadata) : Prop where
  kept : WellKept J H.V.L member host st0.fed.jar rank
  start : st0.fed.coll = {}
  order : vs.Pairwise fun a b => a.time ≤ b.time
  past : ∀ v ∈ vs, v.time ≤ now
  plain : ∀ v ∈ vs, Collect.Plain v.entity
  auto : ∃ l, H.supported = some l ∧ "automatic" ∈ l
  client : ∃ m, member me = some m ∧ strs m.authority.hints ≠ [] ∧ (objs m.authority.metadata).get? kind.leafType = some md
  fuel : rank me < H.V.fuel
  constraints : ∀ p, Up (directory J member issued) me p → WithinConstraints ((stmtsOf (directory J member issued) me p).map (·.payload)) ((directory J member issued).cfg me).payload
  policies : ∀ p, Up (directory J member issued) me p → ∀ s ∈ stmtsOf (directory J member issued) me p, SatisfiedBy want M ((directory J member issued).cfg me).payload s.payload
  takes : ∀ p md', Up (directory J member issued) me p → Suits (directory J member issued) want me kind.leafType md p md' → Takes H kind me md'

section
variable {H : Host} {J : Jose} {member : String → Option Member} {host : Val → Option String} {issued now : Int} {st0 : AppState} {vs : List Visit} {kind : Kind} {me : String} {md : Policy.Metadata}
  {rank : String → Nat} {want : String → String → Policy.Want} {M : String → Policy.Metadata}

theorem Comes.declared (h : Comes H J member host issued now st0 vs kind me md rank want M) : ((directory J member issued).cfg me).payload.md.get? kind.leafType = some md := by
  obtain ⟨m, h1, -, h2⟩ := h.client
  rw [h.kept.md h1]
  exact h2

theorem WellKept.has {J : Jose} {L : Lib} {member : String → Option Member} {host : Val → Option String} {jar jar' : KeyJar} {rank : String → Nat} (w : WellKept J L member host jar rank) (h : Has jar jar') :
    WellKept J L member host jar' rank :=
  { w with anchors := fun e m he hn => ⟨h.2 e (w.anchors e m he hn).1, fun k hk => h.1 e k ((w.anchors e m he hn).2 k hk)⟩ }

/-- C204: the client is let in, whatever has reached the server before, at whichever endpoint. Missing: as for C133 (time, and how members state what they state); the registration proper of OpenID
providers, which is not part of this software. -/
theorem C204_let_in_partial (h : Comes H J member host issued now st0 vs kind me md rank want M) (hfresh : now < issued + 86400 - H.V.P.delta ∧ now < issued + 86400) :
    LetIn H (world J member host issued).at (directory J member issued) want now kind (H.visits (world J member host issued).at st0 vs) me md [] (fun _ => True) := by
  obtain ⟨m, h1, h2, h3⟩ := h.client
  obtain ⟨hj, hs, g1, g2, g3⟩ := collected_visits (H := H) (F := (world J member host issued).at) h.start vs
  have htruthy : m.authority.metadata.truthy = true := by
    cases hm : m.authority.metadata with
    | obj o =>
      cases o with
      | nil => rw [hm] at h3; cases h3
      | cons x o => rfl
    | _ => rw [hm] at h3; cases h3
  obtain ⟨out, o1, o2, -, o4⟩ := C133_resolved_partial (H.env (world J member host issued).at now kind).V J member host issued now (H.visits (world J member host issued).at st0 vs).fed hs "" me m rank want M
    (WellKept.has h.kept hj) rfl g1 (g2 _ h.order) (fun r hr => by obtain ⟨v, hv, e, -⟩ := g3 r hr; rw [← e]; exact h.past v hv)
    (fun r hr => by obtain ⟨v, hv, -, e⟩ := g3 r hr; rw [← e]; exact h.plain v hv) hfresh (.none (by
      cases h0 : member "" with
      | none => rfl
      | some m0 => exact absurd rfl (h.kept.id "" m0 h0).2.1)) h1 h.fuel h2 htruthy h.constraints h.policies
  refine letIn_of h.declared h.auto ?_ h.takes
  cases out with
  | nil => exact absurd rfl o2
  | cons tc tcs =>
    obtain ⟨p, hp, hr⟩ := o4 tc (by simp)
    exact ⟨tc, tcs, p, o1, hp, trivial, hr.anchor, hr.metadata⟩

/-- The response of an OpenID provider to a client it lets in under the id it came with, having registered it with this very request, names a trust anchor at the top of a way up of the client. Missing:
clients registered earlier, the other endpoints and new client ids (see C162). -/
theorem C204_anchor_partial (h : Comes H J member host issued now st0 vs .oidc me md rank want M)
    (hfresh : now < issued + 86400 - H.V.P.delta ∧ now < issued + 86400) (hid : me ≠ "") (hr : Registers .oidc (H.visits (world J member host issued).at st0 vs) me)
    (hown : ∀ S req c S', H.register .oidc S req = (some c, S') → req.get? "client_id" = some (.str c)) (aresp : Dict Val) :
    ∃ resp p a, respond (H.env (world J member host issued).at now .oidc) .oidc (H.visits (world J member host issued).at st0 vs) me [] aresp = some resp ∧ Up (directory J member issued) me p ∧
      p.getLast? = some a ∧ resp.get? "trust_anchor_id" = some (.str a) ∧ ∀ k, k ≠ "trust_anchor_id" → resp.get? k = aresp.get? k := by
  rcases C204_let_in_partial h hfresh with ⟨info, h1, h2, -⟩ | ⟨c, st', p, md', S', h1, h2, -, -, h3, -, -, h4⟩
  · have := (hr info h1).2
    rw [Dict.has, h2 rfl] at this
    cases this
  · obtain ⟨tc, tcs, h5, h6⟩ := h4 rfl
    have hc := hown _ _ _ _ h3
    rw [Dict.get?_set_self] at hc
    cases hc
    refine ⟨_, p, tc.anchor, ?_, h2, h6, Dict.get?_set_self aresp _ _, fun k hk => Dict.get?_set_ne _ _ (Ne.symm hk)⟩
    unfold respond
    rw [h1]
    simp only [extraResponseArgs, if_neg hid, h5]

/-! ## C205 -/

/-- A chain of a member up to an anchor is accepted as it is. -/
theorem accepted_as_given (V : Chains.Env) (F : Collect.Federation) (jar : KeyJar) (now : Int) (stopAt entity : String) (D : Directory) (S : String → Prop) (rank : String → Nat)
    (want : String → String → Policy.Want) (M : String → Policy.Metadata) (p : List String) (hp : Up D entity p)
    (w : WellRun V.L V.P F now stopAt jar D S rank) (he : S entity) (hmd : (D.cfg entity).payload.metadata ≠ none)
    (hcon : WithinConstraints ((stmtsOf D entity p).map (·.payload)) (D.cfg entity).payload)
    (hpol : ∀ s ∈ stmtsOf D entity p, SatisfiedBy want M (D.cfg entity).payload s.payload) :
    ∃ tcs tc jar', Chains.verifyChains V.L [(stmtsOf D entity p ++ [D.cfg entity]).map some] jar = (.ok tcs, jar') ∧ applyPolicies V.E V.K tcs = .ok [tc] ∧ Resolved D want entity p tc := by
  obtain ⟨x, hx, -⟩ := w.fresh entity he
  obtain ⟨j0, js, hj, hhas, hlast⟩ := w.first hp he
  have all : stmtsOf D entity p ++ [D.cfg entity] = j0 :: (js ++ [D.cfg entity]) := by rw [hj]; rfl
  have hsig : ∀ pre b post, j0 :: (js ++ [D.cfg entity]) = pre ++ b :: post → ∃ k, V.L.usable b k = true ∧ V.L.verifies b k = true ∧
      (k ∈ jar.keysOf b.payload.iss ∨ ∃ a ∈ pre, a.payload.sub = b.payload.iss ∧ ∃ ks, a.payload.jwks = some ks ∧ k ∈ ks) := by
    intro pre b post hs
    rw [← all] at hs
    rcases snoc_split hs with ⟨-, rfl, rfl⟩ | ⟨post', -, hs'⟩
    · obtain ⟨k, k1, k2, k3⟩ := w.selfSigned entity he
      obtain ⟨s, k4, k5, ks, k6, k7⟩ := w.last_stmt hp he
      exact ⟨k, k2, k3, Or.inr ⟨s, k4, by rw [k5, (w.self entity he).1], _, k6, k7 k k1⟩⟩
    · exact w.signedFrom hp he pre b post' hs'
  have each : ∀ b ∈ stmtsOf D entity p ++ [D.cfg entity], b.payload.jwks ≠ none ∧ ∃ x, b.payload.exp = some x := by
    intro b hb
    rcases List.mem_append.1 hb with hb | hb
    · exact stmts_each w hp he b hb
    · simp only [List.mem_singleton] at hb
      subst hb
      exact ⟨by obtain ⟨-, ks, h, -⟩ := w.self entity he; rw [h]; simp, x, hx⟩
  obtain ⟨tc, t1, t2, t3, t4⟩ := verifyChain_accepts V.L jar j0 (js ++ [D.cfg entity]) hhas hsig
    (by
      intro pre b post hs hn
      exact absurd hn (each b (by rw [all, hs]; simp)).1)
    (by intro b hb; exact (each b (by rw [all]; exact hb)).2)
    (by
      intro leaf hl
      rw [← all] at hl ⊢
      simp only [List.map_append, List.map_cons, List.map_nil, List.getLast?_append, List.getLast?_singleton, Option.some_or, Option.some.injEq] at hl
      subst hl
      rw [List.map_append, List.map_cons, List.map_nil, List.dropLast_concat]
      exact hcon.meets)
  have hver : tc.verified = (stmtsOf D entity p).map (·.payload) ++ [(D.cfg entity).payload] := by rw [t3, ← all]; simp
  obtain ⟨tc', a1, a2, a3, -, a5⟩ := applyToChain_satisfied V.E V.K tc ((stmtsOf D entity p).map (·.payload)) (D.cfg entity).payload want M hver (by simpa using stmtsOf_ne_nil hp) hmd (by
    intro s hs
    obtain ⟨s', hs', rfl⟩ := List.mem_map.1 hs
    exact hpol s' hs')
  refine ⟨[tc], tc', (verifyChain V.L jar ((stmtsOf D entity p ++ [D.cfg entity]).map some)).2, ?_, by simp [applyPolicies, a1], by rw [a2, t4, all], by rw [a3, t2]; exact hlast, a5⟩
  rw [← all] at t1
  simp only [Chains.verifyChains]
  generalize verifyChain V.L jar ((stmtsOf D entity p ++ [D.cfg entity]).map some) = r at t1 ⊢
  obtain ⟨r1, jar'⟩ := r
  simp only at t1
  subst t1
  rfl

/-- C205: a client that hands in one of its chains, leaf first, is let in with what that chain says about it; nobody is asked, so it does not matter what other entities would answer (`F`). It does not matter
either how old the chain is (see C206). -/
theorem C205_handed_in_partial (h : Comes H J member host issued now st0 vs kind me md rank want M) (hd : H.V.P.delta < 86400) (F : Int → Collect.World) (p : List String) (hp : Up (directory J member issued) me p) :
    LetIn H F (directory J member issued) want now kind (H.visits (world J member host issued).at st0 vs) me md
      ((stmtsOf (directory J member issued) me p ++ [(directory J member issued).cfg me]).map some).reverse (fun q => q = p) := by
  obtain ⟨m, h1, h2, h3⟩ := h.client
  obtain ⟨hj, -⟩ := collected_visits (H := H) (F := (world J member host issued).at) h.start vs
  have hstop : Stop member "" := .none (by
    cases h0 : member "" with
    | none => rfl
    | some m0 => exact absurd rfl (h.kept.id "" m0 h0).2.1)
  have w := (WellKept.has h.kept hj).wellRun (issued := issued) H.V.P issued "" (by omega) hstop
  obtain ⟨tcs, tc, jar', g1, g2, g3⟩ := accepted_as_given (H.env F now kind).V _ (H.visits (world J member host issued).at st0 vs).fed.jar issued "" me (directory J member issued) _ rank want M p hp w ⟨m, h1⟩ (by
      intro hn
      have := h.declared
      rw [Payload.md, hn] at this
      cases this) (h.constraints p hp) (h.policies p hp)
  refine letIn_of h.declared h.auto ⟨tc, [], p, ?_, hp, rfl, g3.anchor, g3.metadata⟩ h.takes
  unfold registrationChains
  rw [if_neg (by simp), List.reverse_reverse, g1]
  exact g2

theorem LetIn.mono {F : Int → Collect.World} {D : Directory} {st : AppState} {provided : List Doc} {ways ways' : List String → Prop} (h : LetIn H F D want now kind st me md provided ways)
    (hw : ∀ p, ways p → ways' p) : LetIn H F D want now kind st me md provided ways' := by
  rcases h with h | ⟨c, st', p, md', S', h1, h2, h3, h4⟩
  · exact .inl h
  · exact .inr ⟨c, st', p, md', S', h1, h2, hw p h3, h4⟩

/-- The chain a resolver of the federation answers with is such a chain: for every anchor at the top of a way up of the client, the resolver answers, and the client that hands the chain of the answer in
is let in along a way up to that anchor. `parse` reads the compact form of a signed statement. -/
theorem C205_resolver_partial (h : Comes H J member host issued now st0 vs kind me md rank want M) (hd : H.V.P.delta < 86400) (F : Int → Collect.World) (R : Server.Resolver) (V : Chains.Env) (str : Chains.State)
    (hist : List Collect.FRun) (nowr : Int) (anchor : String) (rankr : String → Nat) (parse : Val → Doc)
    (hparse : ∀ p, Up (directory J member issued) me p → ∀ j ∈ stmtsOf (directory J member issued) me p ++ [(directory J member issued).cfg me], parse (R.compact j) = some j)
    (hr : Running V J member host issued nowr str hist anchor rankr) (hlife : Server.LastADay J member host issued) (hfuel : rankr me < V.fuel)
    (hup : ∃ p, Up (directory J member issued) me p ∧ p.getLast? = some anchor) :
    ∃ payload vals, (Server.resolve R V str { sub := some me, anchor := some anchor }).1 = .ok payload ∧ payload.get? "trust_chain" = some (.arr vals) ∧
      LetIn H F (directory J member issued) want now kind (H.visits (world J member host issued).at st0 vs) me md (vals.map parse) (fun p => p.getLast? = some anchor) := by
  obtain ⟨m, h1, h2, h3⟩ := h.client
  have htruthy : m.authority.metadata.truthy = true := by
    cases hm : m.authority.metadata with
    | obj d =>
      rw [hm] at h3
      cases d with
      | nil => cases h3
      | cons x xs => rfl
    | _ => rw [hm] at h3; cases h3
  obtain ⟨payload, p, _, r1, u1, u2, r2, -⟩ := Server.C91_federation_partial R hr hlife h1 hfuel h2 htruthy want M h.constraints h.policies hup
  refine ⟨payload, _, r1, r2, ?_⟩
  have hdocs : ((stmtsOf (directory J member issued) me p ++ [(directory J member issued).cfg me]).reverse.map R.compact).map parse =
      ((stmtsOf (directory J member issued) me p ++ [(directory J member issued).cfg me]).map some).reverse := by
    rw [List.map_map, ← List.map_reverse]
    exact List.map_congr_left fun j hj => hparse p u1 j (List.mem_reverse.1 hj)
  rw [hdocs]
  exact (C205_handed_in_partial h hd F p u1).mono fun q hq => by rw [hq, u2]

end

/-- What `TrustChain.export_chain` (/repo/src/fedservice/entity_statement/statement.py 84-92) gives, as the value of `trust_chain` in a request: the claims of the statements, which are no signed documents
(`factory` (cryptojwt) knows nothing but serialised JWS). -/
def exported (tc : TrustChain) : List Doc := (exportChain tc).1.map fun _ => none

/-- The documentation of `export_chain` says that its value can be used as `trust_chain` in an authorization request. That is never so: a client that is not settled is not let in with it. -/
theorem C205_export_refused (A : AutoEnv) (kind : Kind) (st : AppState) (me : String) (tc : TrustChain) (hn : tc.verified ≠ []) (hs : Settled kind (st.srv.cdb.get? me) = false) (c : String) :
    (clientAuthentication A kind st me (exported tc)).1 ≠ .ok (some c) := by
  have hrev : ∃ ds, (exported tc).reverse = none :: ds := by
    cases hv : tc.verified with
    | nil => exact absurd hv hn
    | cons x xs => exact ⟨xs.map fun _ => none, by simp [exported, exportChain, hv]⟩
  obtain ⟨ds, hds⟩ := hrev
  have hne : (exported tc).isEmpty = false := by
    cases he : exported tc with
    | nil => rw [he] at hds; cases hds
    | cons => rfl
  have hc : ∀ fed, registrationChains A fed me (exported tc) = (.error .attributeError, fed) := by
    intro fed
    unfold registrationChains
    rw [if_neg (by rw [hne]; decide), hds]
    rfl
  unfold clientAuthentication
  rw [if_neg (by rw [hs]; decide)]
  cases automaticSupported kind A.supported with
  | error e => simp
  | ok b =>
    cases b with
    | false => simp
    | true => simp [doAutomatic, hc]

/-- C205 in full: what a client gets when it exports one of its verified chains can be used as `trust_chain` in a request. -/
def C205_full : Prop :=
  ∀ (H : Host) (J : Jose) (member : String → Option Member) (host : Val → Option String) (issued now : Int) (st0 : AppState) (vs : List Visit) (kind : Kind) (me : String) (md : Policy.Metadata)
    (rank : String → Nat) (want : String → String → Policy.Want) (M : String → Policy.Metadata), Comes H J member host issued now st0 vs kind me md rank want M →
    now < issued + 86400 - H.V.P.delta ∧ now < issued + 86400 → ∀ (V : Chains.Env) (str : Chains.State) (hist : List Collect.FRun) (nowc : Int) (rankc : String → Nat), Running V J member host issued nowc str hist "" rankc →
    ∀ out tc, (getVerified V str me).1 = .ok out → tc ∈ out →
      ∃ c, (clientAuthentication (H.env (world J member host issued).at now kind) kind (H.visits (world J member host issued).at st0 vs) me (exported tc)).1 = .ok (some c)

/-! ### A client

`leaf` comes to a server that trusts `ta`. -/
namespace Ex204
/-- A registration that records the request under the client's own id. -/
def register (_ : Kind) (S : Server) (req : Dict Val) : Option String × Server := (some "https://leaf", { S with cdb := S.cdb.set "https://leaf" req })
def H : Host := ⟨Chains.Ex.env ((world Chains.Ex.J (Chains.Ex.member133 []) Chains.Ex.host133 0).at 0), some ["explicit", "automatic"], register⟩
def st0 : AppState := ⟨Chains.Ex.st, {}⟩
/-- Before, a stranger has come, someone has looked `leaf` up, and `im` has come, which is no client. -/
def vs : List Visit := [⟨10, .oidc, false, "https://nobody", []⟩, ⟨20, .oidc, true, "https://leaf", []⟩, ⟨20, .oidc, false, "https://im", []⟩]
def md : Policy.Metadata := [("scopes", .arr [.str "email", .str "openid"])]

theorem comes (vs : List Visit) (h1 : vs.Pairwise fun a b => a.time ≤ b.time) (h2 : ∀ v ∈ vs, v.time ≤ 100) (h3 : ∀ v ∈ vs, Collect.Plain v.entity) :
    Comes H Chains.Ex.J (Chains.Ex.member133 []) Chains.Ex.host133 0 100 st0 vs .oidc "https://leaf" md Chains.Ex.rank109 (fun _ _ => .one .null .null) (fun _ => []) := by
  have k := keys_only Chains.Ex.L Chains.Ex.J (Chains.Ex.member133 []) Chains.Ex.host133 Chains.Ex.st.jar 0 100 H.V.P "" "https://leaf" Chains.Ex.mLeaf Chains.Ex.rank109
    (Chains.Ex.wellKept133 [] (.inl rfl)) (by decide) (.none rfl) rfl Chains.Ex.url133 Chains.Ex.onlyKeys133
  exact { kept := Chains.Ex.wellKept133 [] (.inl rfl), start := rfl, order := h1, past := h2, plain := h3, auto := ⟨_, rfl, by decide⟩,
          client := ⟨Chains.Ex.mLeaf, rfl, by decide, rfl⟩, fuel := by decide, constraints := k.1, policies := k.2.1,
          takes := fun p md' _ _ S => ⟨_, _, rfl, by simp [Dict.get?_set_self]⟩ }

end Ex204

example : LetIn Ex204.H (world Chains.Ex.J (Chains.Ex.member133 []) Chains.Ex.host133 0).at (directory Chains.Ex.J (Chains.Ex.member133 []) 0) (fun _ _ => .one .null .null) 100 .oidc
    (Ex204.H.visits (world Chains.Ex.J (Chains.Ex.member133 []) Chains.Ex.host133 0).at Ex204.st0 Ex204.vs) "https://leaf" Ex204.md [] (fun _ => True) :=
  C204_let_in_partial (Ex204.comes Ex204.vs (by decide) (by decide) (by decide)) (by decide)

/-- With no network at all. -/
example : LetIn Ex204.H (fun t => ⟨t, fun _ => .error .connectionError, fun _ _ _ => .error .connectionError⟩) (directory Chains.Ex.J (Chains.Ex.member133 []) 0) (fun _ _ => .one .null .null) 100 .oidc
    (Ex204.H.visits (world Chains.Ex.J (Chains.Ex.member133 []) Chains.Ex.host133 0).at Ex204.st0 Ex204.vs) "https://leaf" Ex204.md
    ((stmtsOf (directory Chains.Ex.J (Chains.Ex.member133 []) 0) "https://leaf" ["https://im", "https://ta"] ++ [(directory Chains.Ex.J (Chains.Ex.member133 []) 0).cfg "https://leaf"]).map some).reverse
    (fun q => q = ["https://im", "https://ta"]) :=
  C205_handed_in_partial (Ex204.comes Ex204.vs (by decide) (by decide) (by decide)) (by decide) _ _ Server.Ex91.up

/-- A resolver that writes statements as pairs of issuer and subject, and a reader that knows the statements of the federation. -/
def Ex204.parse (v : Val) : Doc :=
  (stmtsOf (directory Chains.Ex.J (Chains.Ex.member133 []) 0) "https://leaf" ["https://im", "https://ta"] ++ [(directory Chains.Ex.J (Chains.Ex.member133 []) 0).cfg "https://leaf"]).find?
    fun j => decide (Server.Ex91.R.compact j = v)

example : ∃ payload vals, (Server.resolve Server.Ex91.R (Chains.Ex.env ((world Chains.Ex.J (Chains.Ex.member133 []) Chains.Ex.host133 0).at 50)) Chains.Ex.st { sub := some "https://leaf", anchor := some "https://ta" }).1 =
    .ok payload ∧ payload.get? "trust_chain" = some (.arr vals) ∧
    LetIn Ex204.H (fun t => ⟨t, fun _ => .error .connectionError, fun _ _ _ => .error .connectionError⟩) (directory Chains.Ex.J (Chains.Ex.member133 []) 0) (fun _ _ => .one .null .null) 100 .oidc
      (Ex204.H.visits (world Chains.Ex.J (Chains.Ex.member133 []) Chains.Ex.host133 0).at Ex204.st0 Ex204.vs) "https://leaf" Ex204.md (vals.map Ex204.parse) (fun p => p.getLast? = some "https://ta") := by
  refine C205_resolver_partial (Ex204.comes Ex204.vs (by decide) (by decide) (by decide)) (by decide) _ Server.Ex91.R _ Chains.Ex.st [] 50 "https://ta" Chains.Ex.rank109 Ex204.parse ?_
    (Server.Ex91.running 50 "https://ta" (by decide) (.inr rfl)) (Server.lastADay fun _ _ h => Server.Ex91.defaults h) (by decide) ⟨_, Server.Ex91.up, rfl⟩
  intro p hp
  rw [Chains.Ex.up133 (.inl rfl) hp]
  decide +kernel

/-- The claims of a verified chain are no signed statements; nobody gets in with them. -/
theorem C205_export_violation : ¬ C205_full := by
  intro h
  obtain ⟨out, o1, o2, -, o3⟩ := C133_keys_suffice (Chains.Ex.env ((world Chains.Ex.J (Chains.Ex.member133 []) Chains.Ex.host133 0).at 100)) Chains.Ex.J (Chains.Ex.member133 []) Chains.Ex.host133 0 100 Chains.Ex.st []
    "" "https://leaf" Chains.Ex.mLeaf Chains.Ex.rank109 (Chains.Ex.wellKept133 [] (.inl rfl)) rfl rfl (by simp) (by simp) (by simp) (by decide) (.none rfl) rfl (by decide) (by decide) rfl Chains.Ex.url133
    Chains.Ex.onlyKeys133
  cases out with
  | nil => exact o2 rfl
  | cons tc rest =>
    obtain ⟨c, hc⟩ := h _ _ _ _ _ _ _ _ _ _ _ _ _ _ (Ex204.comes [] (by simp) (by simp) (by simp)) (by decide) _ _ _ _ _ (Server.Ex91.running 100 "" (by decide) (.inl rfl)) _ tc o1 (by simp)
    refine C205_export_refused _ _ _ _ tc ?_ rfl c hc
    obtain ⟨jar, ch, tc0, -, v2, v3⟩ := getVerified_made o1 (List.mem_cons_self (a := tc) (l := rest))
    obtain ⟨leaf, -, v4, -⟩ := applyToChain_ok.1 v2
    rw [v3]
    intro hn
    rw [hn] at v4
    cases v4

end Fed.Registration
