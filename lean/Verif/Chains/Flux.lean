import Verif.Chains.Liveness
import Verif.Collect.Reissue
/-
Property C210: federations that change while they are used; in particular, members that change their keys.
-/
namespace Fed.Chains
open Fed Verify

/-- The rules for changes. Of all that may be found during a period, in whatever order and from whatever time: what a member says about itself and about others is signed with one of its `keys`;
all statements about a member, and all configurations of it, list these; the authorities named are members above it in rank and have a fetch endpoint; nothing expires; who names nobody is an anchor
whose keys are known. -/
structure Flux (L : Lib) (P : Collect.Params) (Q : Collect.Period) (keys : String → List Key) (jar : KeyJar) (rank : String → Nat) (t : Int) : Prop where
  plain : ∀ e, Q.S e → Collect.Plain e
  self : ∀ e j, Q.S e → Q.Cfg e j → j.payload.iss = e ∧ ∃ ks, j.payload.jwks = some ks ∧ ∀ k ∈ keys e, k ∈ ks
  selfSigned : ∀ e j, Q.S e → Q.Cfg e j → ∃ k ∈ keys e, L.usable j k = true ∧ L.verifies j k = true
  current : ∀ e j, Q.S e → Q.Cfg e j → L.current t j = true
  fresh : ∀ e j, Q.S e → Q.Cfg e j → ∃ x, j.payload.exp = some x ∧ t < x - P.delta ∧ t < x + P.delta
  hints : ∀ e j hs, Q.S e → Q.Cfg e j → j.payload.hints = some hs → hs ≠ [] ∧ ∀ a ∈ hs, Q.S a ∧ Q.Rel a e ∧ rank a < rank e
  endpoint : ∀ a e j, Q.Rel a e → Q.Cfg a j → ∃ fe ep, j.payload.md.get? "federation_entity" = some fe ∧ fe.get? "federation_fetch_endpoint" = some ep ∧ ep.truthy = true
  stated : ∀ a e s, Q.Rel a e → Q.About a e s → s.payload.iss = a ∧ s.payload.sub = e ∧ (∃ ks, s.payload.jwks = some ks ∧ ∀ k ∈ keys e, k ∈ ks) ∧ ∃ x, s.payload.exp = some x ∧ t ≤ x - P.delta
  signed : ∀ a e s, Q.Rel a e → Q.About a e s → ∃ k ∈ keys a, L.usable s k = true ∧ L.verifies s k = true
  anchors : ∀ e j, Q.S e → Q.Cfg e j → j.payload.hints = none → Dict.has jar e = true ∧ ∀ k ∈ keys e, k ∈ jar.keysOf e

/-- At present all members can be reached, the authorities at any of the fetch endpoints they have named during the period. -/
structure Answering (Q : Collect.Period) (W : Collect.World) : Prop where
  config : ∀ e, Q.S e → ∃ j, W.config e = .ok (some j)
  fetch : ∀ a e j fe ep, Q.Rel a e → Q.Cfg a j → j.payload.md.get? "federation_entity" = some fe → fe.get? "federation_fetch_endpoint" = some ep → ∃ s, W.fetch ep a e = .ok (some s)

/-- A directory each document of which may be found during the period; they need not be of the same time. -/
structure Mixed (Q : Collect.Period) (D : Directory) : Prop where
  cfg : ∀ e, Q.S e → Q.Cfg e (D.cfg e)
  about : ∀ a e, Q.Rel a e → Q.S a → Q.About a e (D.about a e)

section
variable {L : Lib} {P : Collect.Params} {Q : Collect.Period} {keys : String → List Key} {jar : KeyJar} {rank : String → Nat} {t : Int}

theorem Flux.sound (f : Flux L P Q keys jar rank t) : Q.Sound L.toCrypto P t where
  plain := f.plain
  verify e j he hj := by
    obtain ⟨-, ks, h1, h2⟩ := f.self e j he hj
    obtain ⟨k, h3, h4, h5⟩ := f.selfSigned e j he hj
    have : (ks.filter (L.usable j)).any (L.verifies j) = true := by
      rw [List.any_eq_true]
      exact ⟨k, List.mem_filter.2 ⟨h2 k h3, h4⟩, h5⟩
    simp only [selfVerify, h1, this, f.current e j he hj, Bool.and_self, if_true]
  fresh := f.fresh
  hints e j hs he hj hh a ha := ⟨((f.hints e j hs he hj hh).2 a ha).1, ((f.hints e j hs he hj hh).2 a ha).2.1⟩
  endpoint a e j hr hj := by
    obtain ⟨fe, ep, h1, h2, h3⟩ := f.endpoint a e j hr hj
    exact ⟨some ep, ep, by simp [Collect.getFetchEndpoint, h1, h2], by simp [Collect.usableEndpoint, h3]⟩
  dated a e s hr hs := (f.stated a e s hr hs).2.2.2

/-- The fetch endpoint of a configuration. -/
def endpointOf (j : Jws) : Val := (((j.payload.md.get? "federation_entity").bind fun fe => fe.get? "federation_fetch_endpoint").getD .null)

/-- What is found at present, that is, what the caches hold and for the rest what is served. -/
def foundNow (W : Collect.World) (coll : Collect.State) (keys : String → List Key) : Directory where
  cfg e := match (Collect.view W coll).config e with
    | .ok (some j) => j
    | _ => ⟨{ iss := "", sub := "" }, 0⟩
  about a e := match (Collect.view W coll).fetch (endpointOf (match (Collect.view W coll).config a with
      | .ok (some j) => j
      | _ => ⟨{ iss := "", sub := "" }, 0⟩)) a e with
    | .ok (some s) => s
    | _ => ⟨{ iss := "", sub := "" }, 0⟩
  keys := keys

theorem foundNow_config {W : Collect.World} {coll : Collect.State} (hp : Collect.Past Q coll) (hw : Q.Serves W) (ha : Answering Q W) {e : String} (he : Q.S e) :
    (Collect.view W coll).config e = .ok (some ((foundNow W coll keys).cfg e)) ∧ Q.Cfg e ((foundNow W coll keys).cfg e) := by
  have : ∃ j, (Collect.view W coll).config e = .ok (some j) ∧ Q.Cfg e j := by
    unfold Collect.view
    simp only
    cases hc : coll.config.get? e with
    | some c => exact ⟨c.jws, rfl, (hp.config e c hc).2⟩
    | none =>
      obtain ⟨j, hj⟩ := ha.config e he
      exact ⟨j, hj, (hw.config e j hj).2⟩
  obtain ⟨j, h1, h2⟩ := this
  have h3 : (foundNow W coll keys).cfg e = j := by simp only [foundNow, h1]
  rw [h3]
  exact ⟨h1, h2⟩

theorem foundNow_about {W : Collect.World} {coll : Collect.State} (f : Flux L P Q keys jar rank t) (hp : Collect.Past Q coll) (hw : Q.Serves W) (ha : Answering Q W) {a e : String} (hr : Q.Rel a e)
    (hsa : Q.S a) (hse : Q.S e) : (Collect.view W coll).fetch (endpointOf ((foundNow W coll keys).cfg a)) a e = .ok (some ((foundNow W coll keys).about a e)) ∧ Q.About a e ((foundNow W coll keys).about a e) := by
  obtain ⟨h1, h2⟩ := foundNow_config (keys := keys) hp hw ha hsa
  have : ∃ s, (Collect.view W coll).fetch (endpointOf ((foundNow W coll keys).cfg a)) a e = .ok (some s) ∧ Q.About a e s := by
    obtain ⟨fe, ep, k1, k2, k3⟩ := f.endpoint a e _ hr h2
    have hep : endpointOf ((foundNow W coll keys).cfg a) = ep := by simp [endpointOf, k1, k2]
    rw [hep]
    unfold Collect.view
    simp only
    cases hc : coll.es.get? (Collect.cacheKey a e) with
    | some v =>
      obtain ⟨s, rfl, -, h4, -⟩ := hp.stmt a e (f.plain a hsa) (f.plain e hse) v hc
      exact ⟨s, rfl, h4⟩
    | none =>
      obtain ⟨s, hs⟩ := ha.fetch a e _ fe ep hr h2 k1 k2
      exact ⟨s, hs, hw.fetch a e _ (some ep) ep s hr h2 (by simp [Collect.getFetchEndpoint, k1, k2]) (by simp [Collect.usableEndpoint, k3]) hs⟩
  obtain ⟨s, h3, h4⟩ := this
  have h5 : (foundNow W coll keys).about a e = s := by
    have e1 : (foundNow W coll keys).about a e = match (Collect.view W coll).fetch (endpointOf ((foundNow W coll keys).cfg a)) a e with
      | .ok (some s) => s
      | _ => ⟨{ iss := "", sub := "" }, 0⟩ := rfl
    rw [e1, h3]
  rw [h5]
  exact ⟨h3, h4⟩

theorem foundNow_wellRun {W : Collect.World} {coll : Collect.State} (f : Flux L P Q keys jar rank W.now) (hp : Collect.Past Q coll) (hw : Q.Serves W) (ha : Answering Q W) (stopAt : String)
    (hstop : ∀ e j hs, Q.S e → Q.Cfg e j → j.payload.hints = some hs → e ≠ stopAt) :
    WellRun L P (Collect.view W coll) W.now stopAt jar (foundNow W coll keys) Q.S rank := by
  have c := fun e he => foundNow_config (keys := keys) hp hw ha (e := e) he
  have rel : ∀ e hs a, Q.S e → ((foundNow W coll keys).cfg e).payload.hints = some hs → a ∈ hs → Q.S a ∧ Q.Rel a e ∧ rank a < rank e :=
    fun e hs a he hh hm => (f.hints e _ hs he (c e he).2 hh).2 a hm
  have b : ∀ e hs a, Q.S e → ((foundNow W coll keys).cfg e).payload.hints = some hs → a ∈ hs → _ :=
    fun e hs a he hh hm => foundNow_about (a := a) (e := e) f hp hw ha (rel e hs a he hh hm).2.1 (rel e hs a he hh hm).1 he
  refine ⟨fun e he => (c e he).1, fun e he => f.self e _ he (c e he).2, fun e he => f.selfSigned e _ he (c e he).2, fun e he => f.current e _ he (c e he).2, fun e he => ?_,
    fun e hs he hh => hstop e _ hs he (c e he).2 hh, fun e hs he hh => ⟨(f.hints e _ hs he (c e he).2 hh).1, fun a hm => ⟨(rel e hs a he hh hm).1, (rel e hs a he hh hm).2.2⟩⟩,
    fun e hs a he hh hm => ?_, fun e hs a he hh hm => ?_, fun e hs a he hh hm => f.signed a e _ (rel e hs a he hh hm).2.1 (b e hs a he hh hm).2, fun e he hn => f.anchors e _ he (c e he).2 hn⟩
  · obtain ⟨x, h1, h2, -⟩ := f.fresh e _ he (c e he).2
    exact ⟨x, h1, h2⟩
  · obtain ⟨hsa, hr, -⟩ := rel e hs a he hh hm
    obtain ⟨fe, ep, h1, h2, h3⟩ := f.endpoint a e _ hr (c a hsa).2
    refine ⟨fe, ep, h1, h2, h3, ?_⟩
    have hep : endpointOf ((foundNow W coll keys).cfg a) = ep := by simp [endpointOf, h1, h2]
    rw [← hep]
    exact (b e hs a he hh hm).1
  · obtain ⟨h1, h2, h3, x, h4, -⟩ := f.stated a e _ (rel e hs a he hh hm).2.1 (b e hs a he hh hm).2
    exact ⟨h1, h2, h3, x, h4⟩

theorem foundNow_mixed {W : Collect.World} {coll : Collect.State} (f : Flux L P Q keys jar rank t) (hrel : ∀ a e, Q.Rel a e → Q.S e) (hp : Collect.Past Q coll) (hw : Q.Serves W) (ha : Answering Q W) :
    Mixed Q (foundNow W coll keys) :=
  ⟨fun _ he => (foundNow_config hp hw ha he).2, fun a e hr hsa => (foundNow_about f hp hw ha hr hsa (hrel a e hr)).2⟩
end

/-- More keys do no harm. -/
theorem Flux.grow {L : Lib} {P : Collect.Params} {Q : Collect.Period} {keys : String → List Key} {jar jar' : KeyJar} {rank : String → Nat} {t : Int} (f : Flux L P Q keys jar rank t)
    (h : ∀ e, (∀ k ∈ jar.keysOf e, k ∈ jar'.keysOf e) ∧ (Dict.has jar e = true → Dict.has jar' e = true)) : Flux L P Q keys jar' rank t :=
  { f with anchors := fun e j he hj hn => ⟨(h e).2 (f.anchors e j he hj hn).1, fun k hk => (h e).1 k ((f.anchors e j he hj hn).2 k hk)⟩ }

/-- Resolution with caches that hold only what was found during the period. -/
theorem Flux.resolved (V : Env) (Q : Collect.Period) (keys : String → List Key) (rank : String → Nat) (st : State) (stopAt entity : String)
    (want : String → String → Policy.Want) (M : String → Policy.Metadata)
    (f : Flux V.L V.P Q keys st.jar rank V.W.now) (hW : Q.Serves V.W) (ha : Answering Q V.W) (hrel : ∀ a e, Q.Rel a e → Q.S e) (hpast : Collect.Past Q st.coll)
    (hstop : ∀ e j hs, Q.S e → Q.Cfg e j → j.payload.hints = some hs → e ≠ stopAt)
    (he : Q.S entity) (hfuel : rank entity < V.fuel) (hdecl : ∀ j, Q.Cfg entity j → j.payload.hints ≠ none ∧ j.payload.metadata ≠ none)
    (hcon : ∀ D, Mixed Q D → ∀ p, Up D entity p → WithinConstraints ((stmtsOf D entity p).map (·.payload)) (D.cfg entity).payload)
    (hpol : ∀ D, Mixed Q D → ∀ p, Up D entity p → ∀ s ∈ stmtsOf D entity p, SatisfiedBy want M (D.cfg entity).payload s.payload) :
    ∃ D out, Mixed Q D ∧ (getVerified V st entity stopAt).1 = .ok out ∧ out ≠ [] ∧ (∀ p, Up D entity p → ∃ tc ∈ out, Resolved D want entity p tc) ∧
      ∀ tc ∈ out, ∃ p, Up D entity p ∧ Resolved D want entity p tc := by
  have hm := foundNow_mixed f hrel hpast hW ha
  have w := foundNow_wellRun f hpast hW ha stopAt hstop
  obtain ⟨out, h1⟩ := w.resolved V _ st V.W.now stopAt entity _ _ rank want M (hpast.collect_ideal f.sound hW V.fuel entity stopAt (f.plain _ he)) he hfuel (hdecl _ (hm.cfg _ he)).1
    (hdecl _ (hm.cfg _ he)).2 (hcon _ hm) (hpol _ hm)
  exact ⟨_, out, hm, h1⟩

/-- C210 as far as it holds: while members change what they publish (keys, metadata, authorities, endpoints, policies) according to the rules of `Flux`, every member that names an authority is resolved,
whatever was collected before and when. There is a chain for each way up, and no other; each document in it is one that was published during the period.
Missing: changes that do not keep to the rules (`C210_at_once_violation`), periods longer than the documents are valid (see C133), and as for C109. -/
theorem C210_in_flux_partial (V : Env) (Q : Collect.Period) (keys : String → List Key) (rank : String → Nat) (st : State) (h : List Collect.Run) (stopAt entity : String)
    (want : String → String → Policy.Want) (M : String → Policy.Metadata)
    (hf : ∀ t, (t = V.W.now ∨ ∃ r ∈ h, t = r.world.now) → Flux V.L V.P Q keys st.jar rank t) (hw : ∀ W, (W = V.W ∨ ∃ r ∈ h, W = r.world) → Q.Serves W) (ha : Answering Q V.W)
    (hrel : ∀ a e, Q.Rel a e → Q.S e) (hst : st.coll = Collect.runAll V.L.toCrypto V.P h) (hstop : ∀ e j hs, Q.S e → Q.Cfg e j → j.payload.hints = some hs → e ≠ stopAt)
    (he : Q.S entity) (hfuel : rank entity < V.fuel) (hdecl : ∀ j, Q.Cfg entity j → j.payload.hints ≠ none ∧ j.payload.metadata ≠ none)
    (hcon : ∀ D, Mixed Q D → ∀ p, Up D entity p → WithinConstraints ((stmtsOf D entity p).map (·.payload)) (D.cfg entity).payload)
    (hpol : ∀ D, Mixed Q D → ∀ p, Up D entity p → ∀ s ∈ stmtsOf D entity p, SatisfiedBy want M (D.cfg entity).payload s.payload) :
    ∃ D out, Mixed Q D ∧ (getVerified V st entity stopAt).1 = .ok out ∧ out ≠ [] ∧ (∀ p, Up D entity p → ∃ tc ∈ out, Resolved D want entity p tc) ∧
      ∀ tc ∈ out, ∃ p, Up D entity p ∧ Resolved D want entity p tc := by
  have hpast : Collect.Past Q st.coll := by
    rw [hst]
    exact Collect.runAll_past h fun r hr => ⟨(hf _ (.inr ⟨r, hr, rfl⟩)).sound, hw _ (.inr ⟨r, hr, rfl⟩)⟩
  exact Flux.resolved V Q keys rank st stopAt entity want M (hf V.W.now (.inl rfl)) (hw V.W (.inl rfl)) ha hrel hpast hstop he hfuel hdecl hcon hpol

/-- A statement that has keys and nothing else. -/
structure KeysAlone (p : Payload) : Prop where
  metadata : p.metadata = none
  policy : p.policy = []
  constraints : p.constraints = none
  sub : Constraints.IsUrl p.sub

theorem within_of_keysAlone {sups : List Payload} {leaf : Payload} (h : ∀ q ∈ sups, KeysAlone q) (hl : leaf.constraints = none) (hu : Constraints.IsUrl leaf.sub) : WithinConstraints sups leaf := by
  have lists : ∀ c : Constraints.CStatement, c.constraints = none → c.permitted = [] ∧ c.excluded = [] ∧ c.naming = none := by
    intro c hc
    simp [Constraints.CStatement.permitted, Constraints.CStatement.excluded, Constraints.CStatement.naming, hc]
  have keeps : ∀ s sts, (∀ st ∈ sts, (st : Constraints.CStatement).constraints = none) → Constraints.Keeps s sts := by
    intro s sts hst st hm
    obtain ⟨l1, l2, -⟩ := lists st (hst st hm)
    simp [l1, l2]
  have allC : ∀ st ∈ sups.map toC, st.constraints = none := by
    intro st hst
    obtain ⟨q, hq, rfl⟩ := List.mem_map.1 hst
    exact (h q hq).constraints
  have hleaf : (toC leaf).constraints = none := hl
  refine ⟨?_, ⟨hu, ?_, ?_⟩, ?_, ⟨?_, ?_, ?_⟩, ?_⟩
  · intro q hq
    obtain ⟨l1, l2, -⟩ := lists (toC q) (h q hq).constraints
    exact ⟨(h q hq).sub, by simp [l1], by simp [l2]⟩
  · simp [(lists _ hleaf).1]
  · simp [(lists _ hleaf).2.1]
  · intro q hq n hn
    rw [(lists (toC q) (h q hq).constraints).2.2] at hn
    cases hn
  · intro pre st post c mm hs hc
    rw [allC st (by rw [hs]; simp)] at hc
    cases hc
  · intro pre st post hs
    exact keeps _ _ fun st' hst' => allC st' (by rw [hs]; simp only [List.mem_append, List.mem_cons, List.not_mem_nil, or_false] at hst' ⊢; exact hst'.elim Or.inl fun h => Or.inr (Or.inl h))
  · exact keeps _ _ allC
  · unfold Constraints.Narrowing
    refine List.pairwise_of_forall_mem_list ?_
    intro st hst st' hst' o ho
    rw [(lists _ (allC st hst)).1] at ho
    cases ho

theorem satisfied_of_keysAlone {leaf s : Payload} (h : KeysAlone s) : SatisfiedBy (fun _ _ => .one .null .null) (fun _ => []) leaf s := by
  intro t md _
  have r1 : ((toP s).rule t).policy = [] := by simp [toP, Policy.PStatement.rule, h.policy]
  have r2 : ((toP s).rule t).metadata = [] := by simp [toP, Policy.PStatement.rule, Payload.md, h.metadata]
  rw [r1, r2]
  refine ⟨⟨?_, ?_⟩, ?_, ?_⟩
  · intro c cp hc; rw [r1] at hc; cases hc
  · intro c v hc; rw [r2] at hc; cases hc
  · intro c hc; cases hc
  · intro c hc; cases hc

/-- Statements along a way up are about members, by those that they name. -/
theorem Mixed.mem_stmtsOf {Q : Collect.Period} {D : Directory} (hm : Mixed Q D) (hh : ∀ e j hs a, Q.S e → Q.Cfg e j → j.payload.hints = some hs → a ∈ hs → Q.S a ∧ Q.Rel a e) {e : String}
    {p : List String} (h : Up D e p) (he : Q.S e) : ∀ s ∈ stmtsOf D e p, ∃ a b, Q.Rel a b ∧ Q.About a b s := by
  induction h with
  | top h1 h2 _ =>
    intro s hs
    simp only [stmtsOf, List.nil_append, List.mem_singleton] at hs
    subst hs
    obtain ⟨k1, k2⟩ := hh _ _ _ _ he (hm.cfg _ he) h1 h2
    exact ⟨_, _, k2, hm.about _ _ k2 k1⟩
  | step h1 h2 _ ih =>
    intro s hs
    obtain ⟨k1, k2⟩ := hh _ _ _ _ he (hm.cfg _ he) h1 h2
    simp only [stmtsOf, List.mem_append, List.mem_singleton] at hs
    rcases hs with hs | rfl
    · exact ih k1 s hs
    · exact ⟨_, _, k2, hm.about _ _ k2 k1⟩

/-- C210 where authorities state nothing but keys: then nothing has to be asked of constraints and policies, and all that is declared comes out. -/
theorem C210_keys_partial (V : Env) (Q : Collect.Period) (keys : String → List Key) (rank : String → Nat) (st : State) (h : List Collect.Run) (stopAt entity : String)
    (hf : ∀ t, (t = V.W.now ∨ ∃ r ∈ h, t = r.world.now) → Flux V.L V.P Q keys st.jar rank t) (hw : ∀ W, (W = V.W ∨ ∃ r ∈ h, W = r.world) → Q.Serves W) (ha : Answering Q V.W)
    (hrel : ∀ a e, Q.Rel a e → Q.S e) (hst : st.coll = Collect.runAll V.L.toCrypto V.P h) (hstop : ∀ e j hs, Q.S e → Q.Cfg e j → j.payload.hints = some hs → e ≠ stopAt)
    (he : Q.S entity) (hfuel : rank entity < V.fuel) (hdecl : ∀ j, Q.Cfg entity j → j.payload.hints ≠ none ∧ j.payload.metadata ≠ none ∧ j.payload.constraints = none ∧ Constraints.IsUrl j.payload.sub)
    (hkeys : ∀ a e s, Q.Rel a e → Q.About a e s → KeysAlone s.payload) :
    ∃ out, (getVerified V st entity stopAt).1 = .ok out ∧ out ≠ [] ∧
      ∀ tc ∈ out, ∃ j, Q.Cfg entity j ∧ tc.chain.getLast? = some (some j) ∧ ∀ t md, j.payload.md.get? t = some md → ∃ m, tc.metadata.get? t = some (.obj m) ∧ ∀ c v, md.get? c = some v → Dict.get? m c = some v := by
  have hh : ∀ e j hs a, Q.S e → Q.Cfg e j → j.payload.hints = some hs → a ∈ hs → Q.S a ∧ Q.Rel a e := fun e j hs a h1 h2 h3 h4 =>
    ⟨(((hf _ (.inl rfl)).hints e j hs h1 h2 h3).2 a h4).1, (((hf _ (.inl rfl)).hints e j hs h1 h2 h3).2 a h4).2.1⟩
  have alone : ∀ D, Mixed Q D → ∀ p, Up D entity p → ∀ s ∈ stmtsOf D entity p, KeysAlone s.payload := fun D hm p hp s hs => by
    obtain ⟨a, b, k1, k2⟩ := hm.mem_stmtsOf hh hp he s hs
    exact hkeys a b s k1 k2
  obtain ⟨D, out, h1, h2, h3, -, h5⟩ := C210_in_flux_partial V Q keys rank st h stopAt entity (fun _ _ => .one .null .null) (fun _ => []) hf hw ha hrel hst hstop he hfuel
    (fun j hj => ⟨(hdecl j hj).1, (hdecl j hj).2.1⟩)
    (fun D hm p hp => within_of_keysAlone (fun q hq => by
      obtain ⟨s, hs, rfl⟩ := List.mem_map.1 hq
      exact alone D hm p hp s hs) (hdecl _ (hm.cfg _ he)).2.2.1 (hdecl _ (hm.cfg _ he)).2.2.2)
    (fun D hm p hp s hs => satisfied_of_keysAlone (alone D hm p hp s hs))
  refine ⟨out, h2, h3, fun tc htc => ?_⟩
  obtain ⟨p, hp, hr⟩ := h5 tc htc
  refine ⟨D.cfg entity, h1.cfg _ he, by rw [hr.chain]; simp, fun t md hmd => ?_⟩
  obtain ⟨m, m1, -, m3⟩ := hr.metadata t md hmd
  refine ⟨m, m1, fun c v hc => m3 c v hc fun q hq => ?_⟩
  obtain ⟨s, hs, rfl⟩ := List.mem_map.1 hq
  have := (alone D h1 p hp s hs).policy
  simp [toP, Policy.PStatement.rule, this, Dict.keys]

namespace Ex
def hints210 : String → Option (List String)
  | "https://im" => some ["https://ta"]
  | "https://leaf" => some ["https://im"]
  | "https://leaf2" => some ["https://im"]
  | _ => none
/-- The metadata of authorities; they are known for trust marks too. -/
def fe210 : Policy.Metadata :=
  [("federation_fetch_endpoint", .str "fetch"), ("federation_trust_mark_status_endpoint", .str "status"), ("trust_mark_issuers", .obj [("tm", .arr [])]),
    ("trust_mark_owners", .obj [("tm", .obj [("sub", .str "https://owner"), ("jwks", .int 7)])])]
/-- The configurations of a federation where `im` lists the keys `ks` and signs with `k`. -/
def cfg210 (ks : List Key) (k : Key) (e : String) : Jws :=
  if e = "https://im" then ⟨{ iss := e, sub := e, exp := some 10000, jwks := some ks, hints := some ["https://ta"], metadata := some [("federation_entity", fe210)] }, k⟩
  else conf e (hints210 e) (if e = "https://ta" then [("federation_entity", fe210)] else rp (.str e))
/-- The statements. -/
def about210 (ks : List Key) (k : Key) (a e : String) : Jws :=
  ⟨{ iss := a, sub := e, exp := some 10000, jwks := some (if e = "https://im" then ks else [keyOf e]) }, if a = "https://im" then k else keyOf a⟩
def S210 (e : String) : Prop := e ∈ ["https://leaf", "https://leaf2", "https://im", "https://ta"]
def D210 (ks : List Key) (k : Key) : Directory := ⟨cfg210 ks k, about210 ks k, fun e => if e = "https://im" then [k] else [keyOf e]⟩
def F210 (ks : List Key) (k : Key) : Collect.Federation where
  config e := if e ∈ ["https://leaf", "https://leaf2", "https://im", "https://ta"] then .ok (some (cfg210 ks k e)) else .error .missingPage
  fetch _ a e := .ok (some (about210 ks k a e))
def rank210 : String → Nat
  | "https://leaf" => 2
  | "https://leaf2" => 2
  | "https://im" => 1
  | _ => 0

theorem cfg210_hints (ks : List Key) (k : Key) (e : String) : (cfg210 ks k e).payload.hints = hints210 e := by
  unfold cfg210
  split
  · next h => subst h; rfl
  · rfl

theorem hints210_some {e : String} {hs : List String} (h : hints210 e = some hs) :
    (e = "https://im" ∧ hs = ["https://ta"]) ∨ (e = "https://leaf" ∧ hs = ["https://im"]) ∨ (e = "https://leaf2" ∧ hs = ["https://im"]) := by
  unfold hints210 at h
  split at h
  · exact .inl ⟨rfl, (Option.some.inj h).symm⟩
  · exact .inr (.inl ⟨rfl, (Option.some.inj h).symm⟩)
  · exact .inr (.inr ⟨rfl, (Option.some.inj h).symm⟩)
  · cases h

theorem cfg210_iss (ks : List Key) (k : Key) (e : String) : (cfg210 ks k e).payload.iss = e := by
  unfold cfg210
  split <;> rfl

theorem cfg210_jwks (ks : List Key) (k : Key) (e : String) : (cfg210 ks k e).payload.jwks = some (if e = "https://im" then ks else [keyOf e]) := by
  unfold cfg210
  split <;> rfl

theorem cfg210_sig (ks : List Key) (k : Key) (e : String) : (cfg210 ks k e).sig = if e = "https://im" then k else keyOf e := by
  unfold cfg210
  split <;> rfl

theorem cfg210_exp (ks : List Key) (k : Key) (e : String) : (cfg210 ks k e).payload.exp = some 10000 := by
  unfold cfg210
  split <;> rfl

theorem cfg210_endpoint (ks : List Key) (k : Key) {e : String} (h : e = "https://im" ∨ e = "https://ta") :
    (cfg210 ks k e).payload.md.get? "federation_entity" = some fe210 := by
  rcases h with rfl | rfl <;> rfl

theorem wellRun210 (ks : List Key) (k : Key) (hk : k ∈ ks) (t : Int) (ht : t ≤ 5000) :
    WellRun L { anchors := ["https://ta"] } (F210 ks k) t "" [("https://ta", [1])] (D210 ks k) S210 rank210 where
  config e he := by unfold S210 at he; simp only [F210, if_pos he, D210]
  self e _ := ⟨cfg210_iss ks k e, _, cfg210_jwks ks k e, fun q hq => by
    by_cases he : e = "https://im"
    · simp only [D210, if_pos he, List.mem_singleton] at hq ⊢; rw [hq]; exact hk
    · simp only [D210, if_neg he] at hq ⊢; exact hq⟩
  selfSigned e _ := by
    by_cases he : e = "https://im"
    · exact ⟨k, by simp [D210, he], rfl, by simp [L, D210, cfg210_sig, he]⟩
    · exact ⟨keyOf e, by simp [D210, he], rfl, by simp [L, D210, cfg210_sig, he]⟩
  current e _ := by simp only [L, notExpired, D210, cfg210_exp]; exact decide_eq_true (by omega)
  fresh e _ := ⟨10000, cfg210_exp ks k e, by simp; omega⟩
  notStop e hs he _ := by rintro rfl; revert he; unfold S210; decide
  hints e hs _ hh := by
    rcases hints210_some ((cfg210_hints ks k e).symm.trans hh) with ⟨rfl, rfl⟩ | ⟨rfl, rfl⟩ | ⟨rfl, rfl⟩ <;> refine ⟨by simp, ?_⟩ <;> unfold S210 <;> decide
  served e hs a _ hh ha := by
    refine ⟨fe210, .str "fetch", ?_, by decide, by decide, rfl⟩
    apply cfg210_endpoint
    rcases hints210_some ((cfg210_hints ks k e).symm.trans hh) with ⟨rfl, rfl⟩ | ⟨rfl, rfl⟩ | ⟨rfl, rfl⟩ <;> simp only [List.mem_singleton] at ha <;> simp [ha]
  stated e hs a _ hh ha := ⟨rfl, rfl, ⟨_, rfl, fun q hq => by
    by_cases he : e = "https://im"
    · simp only [D210, if_pos he, List.mem_singleton] at hq ⊢; rw [hq]; exact hk
    · simp only [D210, if_neg he] at hq ⊢; exact hq⟩, _, rfl⟩
  signed e hs a _ hh ha := by
    by_cases h : a = "https://im"
    · exact ⟨k, by simp [D210, h], rfl, by simp [L, D210, about210, h]⟩
    · exact ⟨keyOf a, by simp [D210, h], rfl, by simp [L, D210, about210, h]⟩
  anchors e he hn := by
    have hn : hints210 e = none := (cfg210_hints ks k e).symm.trans hn
    unfold S210 at he
    simp only [List.mem_cons, List.not_mem_nil, or_false] at he
    rcases he with rfl | rfl | rfl | rfl
    · exact absurd hn (by decide)
    · exact absurd hn (by decide)
    · exact absurd hn (by decide)
    · exact ⟨by decide, fun q hq => by simpa [D210, keyOf, KeyJar.keysOf, Dict.get?_cons] using hq⟩
end Ex

/-- C210 in full, for authorities that state nothing but keys: a member is resolved after any change from one well-run federation to another with the same members, the same authorities and the same
metadata, none of whose documents had been about to expire, whatever was collected before. -/
def C210_full : Prop :=
  ∀ (V : Env) (F0 F1 : Collect.Federation) (D0 D1 : Directory) (S : String → Prop) (rank : String → Nat) (st : State) (h : List Collect.FRun) (entity : String),
    (∀ r ∈ h, r.time ≤ V.W.now ∧ Collect.Plain r.entity) → (∀ t, (t = V.W.now ∨ ∃ r ∈ h, t = r.time) → WellRun V.L V.P F0 t "" st.jar D0 S rank) → WellRun V.L V.P F1 V.W.now "" st.jar D1 S rank →
    (∀ e, (D0.cfg e).payload.hints = (D1.cfg e).payload.hints ∧ (D0.cfg e).payload.metadata = (D1.cfg e).payload.metadata) →
    (∀ a e, KeysAlone (D0.about a e).payload ∨ ¬ S e) → (∀ a e, KeysAlone (D1.about a e).payload ∨ ¬ S e) → V.W = F1.at V.W.now →
    st.coll = Collect.runAll V.L.toCrypto V.P (h.map (Collect.FRun.run F0)) → S entity → rank entity < V.fuel → (D1.cfg entity).payload.hints ≠ none → (D1.cfg entity).payload.metadata ≠ none →
    (D1.cfg entity).payload.constraints = none → Constraints.IsUrl (D1.cfg entity).payload.sub →
    ∃ out, (getVerified V st entity "").1 = .ok out ∧ out ≠ []

/-- C210 is violated: if an authority replaces its key, and its superior states the new one instead of the old, then who has the superior's old statement in its cache cannot resolve those the authority
vouches for from then on: that raises, although all the federation's documents are in order. (The old statement stays in the cache until it expires.) -/
theorem C210_at_once_violation : ¬ C210_full := by
  intro h
  have hu : ∀ s : String, (Constraints.labelsOf s).isSome = true → Constraints.IsUrl s := fun s hs => Constraints.isUrl_iff.2 (Option.isSome_iff_exists.1 hs)
  have alone : ∀ ks k a e, KeysAlone (Ex.about210 ks k a e).payload ∨ ¬ Ex.S210 e := by
    intro ks k a e
    by_cases he : Ex.S210 e
    · refine .inl ⟨rfl, rfl, rfl, ?_⟩
      show Constraints.IsUrl e
      unfold Ex.S210 at he
      simp only [List.mem_cons, List.not_mem_nil, or_false] at he
      rcases he with rfl | rfl | rfl | rfl <;> exact hu _ (by decide +kernel)
    · exact .inr he
  obtain ⟨out, h1, -⟩ := h (Ex.env ((Ex.F210 [20] 20).at 100)) (Ex.F210 [2] 2) (Ex.F210 [20] 20) (Ex.D210 [2] 2) (Ex.D210 [20] 20) Ex.S210 Ex.rank210
    { Ex.st with coll := Collect.runAll Ex.L.toCrypto { anchors := ["https://ta"] } ([⟨0, 10, "https://leaf", ""⟩].map (Collect.FRun.run (Ex.F210 [2] 2))) } [⟨0, 10, "https://leaf", ""⟩] "https://leaf2"
    (by simp [Ex.env, Collect.Federation.at, Collect.Plain]) (fun t ht => Ex.wellRun210 _ _ (by simp) t (by
      rcases ht with rfl | ⟨r, hr, rfl⟩
      · exact (by decide : (100 : Int) ≤ 5000)
      · simp only [List.mem_singleton] at hr; subst hr; decide)) (Ex.wellRun210 _ _ (by simp) _ (by exact (by decide : (100 : Int) ≤ 5000)))
    (fun e => ⟨(Ex.cfg210_hints ..).trans (Ex.cfg210_hints ..).symm, by
      show (Ex.cfg210 _ _ e).payload.metadata = (Ex.cfg210 _ _ e).payload.metadata
      unfold Ex.cfg210
      split <;> rfl⟩)
    (alone _ _) (alone _ _) rfl rfl (by unfold Ex.S210; decide) (by decide) (by decide) (by decide) (by decide) (hu _ (by decide +kernel))
  have : (getVerified (Ex.env ((Ex.F210 [20] 20).at 100))
    { Ex.st with coll := Collect.runAll Ex.L.toCrypto { anchors := ["https://ta"] } ([⟨0, 10, "https://leaf", ""⟩].map (Collect.FRun.run (Ex.F210 [2] 2))) } "https://leaf2" "").1 = .error .badSignature := by decide +kernel
  rw [this] at h1
  cases h1

namespace Ex
/-- The period in which `im` moves from one key to another, both of which are listed all the while. -/
def Q210 : Collect.Period where
  S := S210
  Cfg e j := ∃ k ∈ [2, 20], j = cfg210 [2, 20] k e
  About a e s := ∃ k ∈ [2, 20], s = about210 [2, 20] k a e
  Rel a e := S210 e ∧ ∃ hs, hints210 e = some hs ∧ a ∈ hs
def keys210 (e : String) : List Key := if e = "https://im" then [2, 20] else [keyOf e]

theorem rel210 {a e : String} (h : Q210.Rel a e) : (a = "https://im" ∨ a = "https://ta") ∧ S210 a ∧ rank210 a < rank210 e := by
  obtain ⟨-, hs, h1, h2⟩ := h
  unfold S210
  rcases hints210_some h1 with ⟨rfl, rfl⟩ | ⟨rfl, rfl⟩ | ⟨rfl, rfl⟩ <;> simp only [List.mem_singleton] at h2 <;> subst h2 <;> decide

theorem flux210 (t : Int) (ht : t ≤ 5000) : Flux L { anchors := ["https://ta"] } Q210 keys210 [("https://ta", [1])] rank210 t where
  plain e he := by
    change e ∈ _ at he
    simp only [List.mem_cons, List.not_mem_nil, or_false] at he
    rcases he with rfl | rfl | rfl | rfl <;> decide
  self e j _ hj := by
    obtain ⟨k, -, rfl⟩ := hj
    exact ⟨cfg210_iss _ k e, _, cfg210_jwks _ k e, fun q hq => hq⟩
  selfSigned e j _ hj := by
    obtain ⟨k, hk, rfl⟩ := hj
    refine ⟨_, ?_, rfl, by simp only [L, decide_eq_true_eq]; rfl⟩
    rw [cfg210_sig]
    unfold keys210
    split
    · exact hk
    · simp
  current e j _ hj := by
    obtain ⟨k, -, rfl⟩ := hj
    simp only [L, notExpired, cfg210_exp]; exact decide_eq_true (by omega)
  fresh e j _ hj := by
    obtain ⟨k, -, rfl⟩ := hj
    exact ⟨10000, cfg210_exp _ k e, by simp; omega, by simp; omega⟩
  hints e j hs he hj hh := by
    obtain ⟨k, -, rfl⟩ := hj
    rw [cfg210_hints] at hh
    refine ⟨?_, fun a ha => ?_⟩
    · rcases hints210_some hh with ⟨rfl, rfl⟩ | ⟨rfl, rfl⟩ | ⟨rfl, rfl⟩ <;> simp
    · have hr : Q210.Rel a e := ⟨he, hs, hh, ha⟩
      exact ⟨(rel210 hr).2.1, hr, (rel210 hr).2.2⟩
  endpoint a e j hr hj := by
    obtain ⟨k, -, rfl⟩ := hj
    exact ⟨_, .str "fetch", cfg210_endpoint _ k (rel210 hr).1, by decide, by decide⟩
  stated a e s _ hs := by
    obtain ⟨k, -, rfl⟩ := hs
    exact ⟨rfl, rfl, ⟨_, rfl, fun q hq => hq⟩, 10000, rfl, by simp; omega⟩
  signed a e s _ hs := by
    obtain ⟨k, hk, rfl⟩ := hs
    refine ⟨_, ?_, rfl, by simp only [L, decide_eq_true_eq]; rfl⟩
    simp only [about210]
    unfold keys210
    split
    · exact hk
    · simp
  anchors e j he hj hn := by
    obtain ⟨k, -, rfl⟩ := hj
    rw [cfg210_hints] at hn
    change e ∈ _ at he
    simp only [List.mem_cons, List.not_mem_nil, or_false] at he
    rcases he with rfl | rfl | rfl | rfl
    · exact absurd hn (by decide)
    · exact absurd hn (by decide)
    · exact absurd hn (by decide)
    · exact ⟨by decide, fun q hq => by simpa [keys210, keyOf, KeyJar.keysOf, Dict.get?_cons] using hq⟩

theorem serves210 (k : Key) (hk : k ∈ [2, 20]) (t : Int) : Q210.Serves ((F210 [2, 20] k).at t) where
  config e j h := by
    simp only [Collect.Federation.at, F210] at h
    split at h
    · next he => cases h; exact ⟨he, k, hk, rfl⟩
    · cases h
  fetch a e j ep v s _ _ _ _ h := by
    simp only [Collect.Federation.at, F210] at h
    cases h
    exact ⟨k, hk, rfl⟩
end Ex

/-- The key is changed properly: `leaf` is collected while `im` signs with the old key and lists both; then `im` signs with the new one, and `leaf2` is resolved by who has kept the old documents. -/
example : ∃ out, (getVerified (Ex.env ((Ex.F210 [2, 20] 20).at 100)) { Ex.st with coll := Collect.runAll Ex.L.toCrypto { anchors := ["https://ta"] } [⟨(Ex.F210 [2, 20] 2).at 0, 10, "https://leaf", ""⟩] }
    "https://leaf2").1 = .ok out ∧ out ≠ [] ∧ ∀ tc ∈ out, ∃ j, Ex.Q210.Cfg "https://leaf2" j ∧ tc.chain.getLast? = some (some j) ∧
      ∀ t md, j.payload.md.get? t = some md → ∃ m, tc.metadata.get? t = some (.obj m) ∧ ∀ c v, md.get? c = some v → Dict.get? m c = some v := by
  have hu : ∀ s : String, (Constraints.labelsOf s).isSome = true → Constraints.IsUrl s := fun s hs => Constraints.isUrl_iff.2 (Option.isSome_iff_exists.1 hs)
  refine C210_keys_partial (Ex.env ((Ex.F210 [2, 20] 20).at 100)) Ex.Q210 Ex.keys210 Ex.rank210
    { Ex.st with coll := Collect.runAll Ex.L.toCrypto { anchors := ["https://ta"] } [⟨(Ex.F210 [2, 20] 2).at 0, 10, "https://leaf", ""⟩] } [⟨(Ex.F210 [2, 20] 2).at 0, 10, "https://leaf", ""⟩] "" "https://leaf2"
    ?_ ?_ ?_ (fun _ _ h => h.1) rfl ?_ (by show Ex.S210 _; unfold Ex.S210; decide) (by decide) ?_ ?_
  · rintro t (rfl | ⟨r, hr, rfl⟩)
    · exact Ex.flux210 100 (by decide)
    · simp only [List.mem_singleton] at hr; subst hr; exact Ex.flux210 0 (by decide)
  · rintro t (rfl | ⟨r, hr, rfl⟩)
    · exact Ex.serves210 20 (by simp) _
    · simp only [List.mem_singleton] at hr; subst hr; exact Ex.serves210 2 (by simp) _
  · refine ⟨fun e he => ⟨Ex.cfg210 [2, 20] 20 e, ?_⟩, fun a e _ _ _ _ _ _ _ => ⟨_, rfl⟩⟩
    change e ∈ _ at he
    simp only [Ex.env, Collect.Federation.at, Ex.F210, if_pos he]
  · rintro e j hs he - - rfl
    change "" ∈ _ at he
    revert he; decide
  · rintro j ⟨k, -, rfl⟩
    exact ⟨by simp [Ex.cfg210_hints, Ex.hints210], by simp [Ex.cfg210, Ex.conf], rfl, hu "https://leaf2" (by decide +kernel)⟩
  · rintro a e s ⟨he, -⟩ ⟨k, -, rfl⟩
    refine ⟨rfl, rfl, rfl, ?_⟩
    show Constraints.IsUrl e
    unfold Ex.S210 at he
    simp only [List.mem_cons, List.not_mem_nil, or_false] at he
    rcases he with rfl | rfl | rfl | rfl <;> exact hu _ (by decide +kernel)

end Fed.Chains
