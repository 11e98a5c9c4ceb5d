import Verif.Chains.Served
/-
Property C133: a federation of servers of this software is resolved by clients of this software.
-/
namespace Fed.Chains
open Fed Verify

theorem strs_arr (hs : List String) : strs (.arr (hs.map .str)) = hs := by
  induction hs with
  | nil => rfl
  | cons a hs ih =>
    simp only [strs, List.map_cons] at ih ⊢
    rw [List.filterMap_cons]
    simp only [ih]

theorem strs_null : strs .null = [] := rfl

/-- The directory of what the members publish. -/
def directory (J : Jose) (member : String → Option Member) (issued : Int) : Directory where
  cfg e := match member e with
    | none => token J e []
    | some m => token J e ((Server.entityConfiguration m.authority issued m.marks).toOption.getD [])
  about a e := match member a with
    | none => token J a []
    | some m => token J a ((Server.fetch m.authority issued { iss := some a, sub := some e }).1.toOption.getD [])
  keys e := match member e with
    | none => []
    | some m => J.keys m.authority.ownKeys

section
variable {J : Jose} {L : Lib} {member : String → Option Member} {host : Val → Option String} {jar : KeyJar} {rank : String → Nat} {issued : Int}

/-- The configuration a member publishes. -/
structure Published (J : Jose) (A : Server.Authority) (issued : Int) (p : Payload) : Prop where
  iss : p.iss = A.entityId
  sub : p.sub = A.entityId
  exp : p.exp = some (issued + 86400)
  jwks : p.jwks = some (J.keys A.ownKeys)
  hints : p.hints = if A.hints.truthy then some (strs A.hints) else none
  metadata : p.metadata = if A.metadata.truthy then some (objs A.metadata) else none
  policy : p.policy = []
  constraints : p.constraints = none

theorem published_config (J : Jose) (A : Server.Authority) (issued : Int) (marks : Val) :
    ∃ d, Server.entityConfiguration A issued marks = .ok d ∧ Published J A issued (decode J d) := by
  obtain ⟨d, h0, h1, h2, h3, h4, h5, -, -, h6, h7⟩ := Server.C86_configuration A issued marks
  refine ⟨d, h0, ?_⟩
  have none_of : ∀ k, k ∉ ["iss", "sub", "jwks", "metadata", "authority_hints", "trust_marks", "iat", "exp"] → d.get? k = none := by
    intro k hk
    cases hv : d.get? k with
    | none => rfl
    | some v => exact absurd (h7 k v hv) hk
  refine ⟨?_, ?_, ?_, ?_, ?_, ?_, ?_, ?_⟩
  · simp [decode, h1, asStr]
  · simp [decode, h2, asStr]
  · simp [decode, h6, asInt]
  · simp [decode, h3]
  · simp only [decode, h5]
    by_cases h : A.hints.truthy = true <;> simp [Option.filter, h]
  · simp only [decode, h4]
    by_cases h : A.metadata.truthy = true <;> simp [Option.filter, h]
  · simp [decode, none_of "metadata_policy" (by decide)]
  · simp [decode, none_of "constraints" (by decide)]

/-- Named authorities, as read by others: none if there are none. -/
theorem hints_read {A : Server.Authority} (h : A.hints = .null ∨ ∃ hs : List String, A.hints = .arr (hs.map .str)) :
    (A.hints.truthy = true ↔ strs A.hints ≠ []) := by
  rcases h with h | ⟨hs, h⟩
  · rw [h]; simp [Val.truthy, strs]
  · rw [h, strs_arr]
    cases hs <;> simp [Val.truthy]

theorem WellKept.cfg (w : WellKept J L member host jar rank) {e : String} {m : Member} (h : member e = some m) :
    (world J member host issued).config e = .ok (some ((directory J member issued).cfg e)) ∧ Published J m.authority issued ((directory J member issued).cfg e).payload := by
  obtain ⟨d, h1, h2⟩ := published_config J m.authority issued m.marks
  have hid := (w.id e m h).1
  constructor
  · simp [world, directory, h, h1, answer, Except.toOption, hid]
  · simpa [directory, h, h1, Except.toOption, token] using h2

/-- What an authority states about a member it has registered. -/
structure Stated (J : Jose) (A : Server.Authority) (issued : Int) (e : String) (ks : List Key) (p : Payload) : Prop where
  iss : p.iss = A.entityId
  sub : p.sub = e
  exp : p.exp = some (issued + 86400)
  jwks : p.jwks = some ks

theorem typePolicies_ok (policy : Dict (Dict Val)) : ∀ (ts : List String) (md mp : Dict Val), ∃ r, Server.typePolicies policy (ts.map .str) md mp = .ok r
  | [], md, mp => ⟨(md, mp), rfl⟩
  | t :: ts, md, mp => by
    simp only [List.map_cons, Server.typePolicies]
    cases policy.get? t with
    | none => exact typePolicies_ok policy ts md mp
    | some p => exact typePolicies_ok policy ts _ _

theorem withPolicies_ok (A : Server.Authority) (e : String) (r : Dict Val) (h : ∀ v, r.get? "entity_types" = some v → ∃ ts : List String, v = .arr (ts.map .str)) :
    ∃ kw, (Server.withPolicies A e r).1 = .ok kw := by
  unfold Server.withPolicies
  split
  · exact ⟨_, rfl⟩
  · split
    · exact ⟨_, rfl⟩
    · rename_i types ht
      obtain ⟨ts, rfl⟩ := h _ ht
      simp only [pyIter]
      obtain ⟨⟨md, mp⟩, h1⟩ := typePolicies_ok A.policy ts [] []
      rw [h1]
      split
      · rename_i h2; cases h2
      · exact ⟨_, rfl⟩
      · exact ⟨_, rfl⟩

/-- The statement made about a registered member. -/
theorem Registered.fetched {A : Server.Authority} {e : String} {ks : List Key} {reg : Dict Val} (r : Registered J A e ks reg) (he : e ≠ "") (hne : e ≠ A.entityId) (hid : A.entityId ≠ "") :
    ∃ d kw, (Server.fetch A issued { iss := some A.entityId, sub := some e }).1 = .ok d ∧ Stated J A issued e ks (decode J d) ∧
      (Server.withPolicies A e (Server.addHints A.entityId reg)).1 = .ok kw ∧ Server.createStatement A.ownKeys issued A.entityId e none kw = .ok d := by
  have hiss : Server.FetchRequest.issuer { iss := some A.entityId, sub := some e } A = A.entityId := by simp [Server.FetchRequest.issuer]
  obtain ⟨v, hv, hk⟩ := r.keys
  have hreg : reg ≠ [] := by rintro rfl; cases hv
  have hty : ∀ v, (Server.addHints A.entityId reg).get? "entity_types" = some v → ∃ ts : List String, v = .arr (ts.map .str) := by
    intro v hv
    rw [Server.get?_addHints _ _ _ (by decide)] at hv
    exact r.types v hv
  obtain ⟨kw, hkw⟩ := withPolicies_ok A e (Server.addHints A.entityId reg) hty
  have clean : ∀ k ∈ ["iss", "sub", "key_jar", "lifetime", "include_jwks"], kw.get? k = none := by
    intro k hk
    obtain ⟨c1, c2⟩ := r.clean k hk
    have hk1 : k ≠ "entity_types" ∧ k ≠ "metadata" ∧ k ≠ "metadata_policy" ∧ k ≠ "authority_hints" := by
      simp only [List.mem_cons, List.not_mem_nil, or_false] at hk
      rcases hk with rfl | rfl | rfl | rfl | rfl <;> decide
    rw [Server.withPolicies_get? hkw k hk1.1 hk1.2.1 hk1.2.2.1, c2, Server.get?_addHints _ _ _ hk1.2.2.2, c1]
    rfl
  have jw : kw.get? "jwks" = some v := by
    rw [Server.withPolicies_get? hkw "jwks" (by decide) (by decide) (by decide), r.own, Server.get?_addHints _ _ _ (by decide), hv]
    rfl
  obtain ⟨d, hd⟩ : ∃ d, Server.createStatement A.ownKeys issued A.entityId e none kw = .ok d := by
    unfold Server.createStatement
    simp only [Dict.has, clean "iss" (by simp), clean "sub" (by simp), clean "key_jar" (by simp), Server.param, clean "lifetime" (by simp)]
    exact ⟨_, rfl⟩
  refine ⟨d, kw, ?_, ?_, hkw, hd⟩
  · unfold Server.fetch
    simp only [hiss, he, hne, or_self, if_false, r.entry]
    cases reg with
    | nil => exact absurd rfl hreg
    | cons x xs =>
      simp only
      generalize Server.withPolicies A e (Server.addHints A.entityId (x :: xs)) = w at hkw ⊢
      obtain ⟨w1, w2⟩ := w
      simp only at hkw
      subst hkw
      exact hd
  · obtain ⟨c1, c2, c3, -, -, -, c7, -, c9, -⟩ := Server.C59_payload _ _ _ _ _ _ _ hd
    refine ⟨by simp [decode, c2, asStr], by simp [decode, c1, asStr], ?_, ?_⟩
    · have := c9 86400 (.inr ⟨clean "lifetime" (by simp), rfl⟩) (by decide)
      simp [decode, this, asInt]
    · simp [decode, c7 v jw, hk]

/-- A collection may be told to stop at somebody who is no member, or at one who is at the top anyway. -/
def Stop (member : String → Option Member) (stopAt : String) : Prop := ∀ m, member stopAt = some m → strs m.authority.hints = []

theorem Stop.none {member : String → Option Member} {stopAt : String} (h : member stopAt = none) : Stop member stopAt := by
  intro m hm; rw [h] at hm; cases hm

/-- The directory of a federation whose operators see to their duties is that of a well-run federation. -/
theorem WellKept.wellRun (w : WellKept J L member host jar rank) (P : Collect.Params) (now : Int) (stopAt : String) (hnow : now < issued + 86400 - P.delta ∧ now < issued + 86400)
    (hstop : Stop member stopAt) :
    WellRun L P (world J member host issued) now stopAt jar (directory J member issued) (fun e => ∃ m, member e = some m) rank := by
  have hread : ∀ e m, member e = some m → ((directory J member issued).cfg e).payload.hints = if strs m.authority.hints = [] then none else some (strs m.authority.hints) := by
    intro e m h
    rw [(w.cfg h).2.hints]
    by_cases ht : m.authority.hints.truthy = true
    · rw [if_pos ht, if_neg ((hints_read (w.hints e m h)).1 ht)]
    · rw [if_neg ht, if_pos]
      exact Classical.byContradiction fun hn => ht ((hints_read (w.hints e m h)).2 hn)
  have hnamed : ∀ e m hs a, member e = some m → ((directory J member issued).cfg e).payload.hints = some hs → a ∈ hs → a ∈ strs m.authority.hints := by
    intro e m hs a h hh ha
    rw [hread e m h] at hh
    split at hh
    · cases hh
    · cases hh; exact ha
  have habout : ∀ e m hs a, member e = some m → ((directory J member issued).cfg e).payload.hints = some hs → a ∈ hs → ∃ ma reg fe ep d, member a = some ma ∧ rank a < rank e ∧
      Registered J ma.authority e (J.keys m.authority.ownKeys) reg ∧ (objs ma.authority.metadata).get? "federation_entity" = some fe ∧
      fe.get? "federation_fetch_endpoint" = some ep ∧ ep.truthy = true ∧ host ep = some a ∧ ma.authority.entityId = a ∧
      (directory J member issued).about a e = token J a d ∧ Stated J ma.authority issued e (J.keys m.authority.ownKeys) (decode J d) ∧
      (Server.fetch ma.authority issued { iss := some a, sub := some e }).1 = .ok d := by
    intro e m hs a h hh ha
    obtain ⟨ma, reg, fe, ep, h1, h2, h3, h4, h5, h6, h7⟩ := w.superior e m a h (hnamed e m hs a h hh ha)
    obtain ⟨hid, hne, -⟩ := w.id a ma h1
    obtain ⟨d, kw, k1, k2, -, -⟩ := h3.fetched (issued := issued) (w.id e m h).2.1 (by rw [hid]; rintro rfl; omega) (by rw [hid]; exact hne)
    rw [hid] at k1
    exact ⟨ma, reg, fe, ep, d, h1, h2, h3, h4, h5, h6, h7, hid, by simp [directory, h1, k1, Except.toOption], k2, k1⟩
  refine ⟨?_, ?_, ?_, ?_, ?_, ?_, ?_, ?_, ?_, ?_, ?_⟩
  · rintro e ⟨m, h⟩
    exact (w.cfg h).1
  · rintro e ⟨m, h⟩
    have := (w.cfg (issued := issued) h).2
    refine ⟨this.iss.trans (w.id e m h).1, _, this.jwks, ?_⟩
    simp [directory, h]
  · rintro e ⟨m, h⟩
    simp only [directory, h]
    exact w.signs e m _ h
  · rintro e ⟨m, h⟩
    exact w.time _ _ _ (w.cfg h).2.exp hnow.2
  · rintro e ⟨m, h⟩
    exact ⟨_, (w.cfg h).2.exp, hnow.1⟩
  · rintro e hs ⟨m, h⟩ hh rfl
    rw [hread _ m h, if_pos (hstop m h)] at hh; cases hh
  · rintro e hs ⟨m, h⟩ hh
    refine ⟨?_, ?_⟩
    · rw [hread e m h] at hh
      split at hh
      · cases hh
      · cases hh; assumption
    · intro a ha
      obtain ⟨ma, _, _, _, _, h1, h2, _⟩ := habout e m hs a h hh ha
      exact ⟨⟨ma, h1⟩, h2⟩
  · rintro e hs a ⟨m, h⟩ hh ha
    obtain ⟨ma, reg, fe, ep, d, h1, h2, h3, h4, h5, h6, h7, h8, h9, h10, h11⟩ := habout e m hs a h hh ha
    refine ⟨fe, ep, ?_, h5, h6, ?_⟩
    · have := (w.cfg (issued := issued) h1).2.metadata
      have ht : ma.authority.metadata.truthy = true := by
        refine Classical.byContradiction fun hn => ?_
        cases hm : ma.authority.metadata with
        | obj d =>
          cases d with
          | nil => rw [hm] at h4; cases h4
          | cons x xs => rw [hm] at hn; exact hn rfl
        | null => rw [hm] at h4; cases h4
        | bool b => rw [hm] at h4; cases h4
        | int b => rw [hm] at h4; cases h4
        | str b => rw [hm] at h4; cases h4
        | arr b => rw [hm] at h4; cases h4
      rw [if_pos ht] at this
      simp [Payload.md, this, h4]
    · have hh : (Server.fetch (Server.after ma.authority ma.requests) issued { iss := some a, sub := some e }).1 =
          (Server.fetch ma.authority issued { iss := some a, sub := some e }).1 :=
        Server.C56_partial _ _ _ _ (w.requests a ma h1) (by unfold Server.Harmless; rw [h8]; simp)
      simp [world, h7, h1, hh, h11, answer, h8, h9]
  · rintro e hs a ⟨m, h⟩ hh ha
    obtain ⟨ma, reg, fe, ep, d, h1, h2, h3, h4, h5, h6, h7, h8, h9, h10, h11⟩ := habout e m hs a h hh ha
    rw [h9]
    refine ⟨h10.iss.trans h8, h10.sub, ⟨_, h10.jwks, ?_⟩, _, h10.exp⟩
    simp [directory, h]
  · rintro e hs a ⟨m, h⟩ hh ha
    obtain ⟨ma, reg, fe, ep, d, h1, h2, h3, h4, h5, h6, h7, h8, h9, h10, h11⟩ := habout e m hs a h hh ha
    rw [h9]
    simp only [directory, h1]
    exact w.signs a ma d h1
  · rintro e ⟨m, h⟩ hn
    rw [hread e m h] at hn
    split at hn
    · rename_i hz
      simp only [directory, h]
      exact w.anchors e m h hz
    · cases hn

theorem WellKept.dated (w : WellKept J L member host jar rank) : (world J member host issued).Dated := by
  intro e j h
  cases hm : member e with
  | none => simp [world, hm] at h
  | some m =>
    obtain ⟨h1, h2⟩ := w.cfg (issued := issued) hm
    rw [h1] at h
    cases h
    exact ⟨_, h2.exp⟩

theorem WellKept.lasting (w : WellKept J L member host jar rank) {now : Int} (hnow : now < issued + 86400) : (world J member host issued).Lasting L.toCrypto now := by
  intro e j h t t' _ hn _
  cases hm : member e with
  | none => simp [world, hm] at h
  | some m =>
    obtain ⟨h1, h2⟩ := w.cfg (issued := issued) hm
    rw [h1] at h
    cases h
    exact w.time _ _ _ h2.exp (by omega)

theorem WellKept.plainHints (w : WellKept J L member host jar rank) : (world J member host issued).PlainHints := by
  intro e j hs h hh a ha
  cases hm : member e with
  | none => simp [world, hm] at h
  | some m =>
    obtain ⟨h1, h2⟩ := w.cfg (issued := issued) hm
    rw [h1] at h
    cases h
    rw [h2.hints] at hh
    split at hh
    · cases hh
      obtain ⟨ma, _, _, _, h3, _⟩ := w.superior e m a hm ha
      exact (w.id a ma h3).2.2
    · cases hh

/-- The hints of a member's configuration. -/
theorem WellKept.read (w : WellKept J L member host jar rank) {e : String} {m : Member} (h : member e = some m) :
    ((directory J member issued).cfg e).payload.hints = if strs m.authority.hints = [] then none else some (strs m.authority.hints) := by
  rw [(w.cfg h).2.hints]
  by_cases ht : m.authority.hints.truthy = true
  · rw [if_pos ht, if_neg ((hints_read (w.hints e m h)).1 ht)]
  · rw [if_neg ht, if_pos]
    exact Classical.byContradiction fun hn => ht ((hints_read (w.hints e m h)).2 hn)

end

/-! ## C133 -/

/-- C133: the members of a federation that all run this software, and whose operators see to their duties, are resolved by whoever runs this software: there is a chain for each way up to an anchor,
all with the metadata the entity declares, and no other chain, whatever was collected and asked before, provided that what the entity declares satisfies the policies and constraints that its
superiors registered. Missing: as for C109; for statements reissued between two collections, which carry other dates, see `Chains/Reissued`. -/
theorem C133_resolved_partial (V : Env) (J : Jose) (member : String → Option Member) (host : Val → Option String) (issued now : Int) (st : State) (h : List Collect.FRun) (stopAt entity : String)
    (m : Member) (rank : String → Nat) (want : String → String → Policy.Want) (M : String → Policy.Metadata)
    (w : WellKept J V.L member host st.jar rank) (hW : V.W = (world J member host issued).at now)
    (hst : st.coll = Collect.runAll V.L.toCrypto V.P (h.map (Collect.FRun.run (world J member host issued)))) (ho : h.Pairwise fun a b => a.time ≤ b.time)
    (ht : ∀ r ∈ h, r.time ≤ now) (hp : ∀ r ∈ h, Collect.Plain r.entity)
    (hnow : now < issued + 86400 - V.P.delta ∧ now < issued + 86400) (hstop : Stop member stopAt) (he : member entity = some m) (hfuel : rank entity < V.fuel)
    (hhints : strs m.authority.hints ≠ []) (hmd : m.authority.metadata.truthy = true)
    (hcon : ∀ p, Up (directory J member issued) entity p → WithinConstraints ((stmtsOf (directory J member issued) entity p).map (·.payload)) ((directory J member issued).cfg entity).payload)
    (hpol : ∀ p, Up (directory J member issued) entity p → ∀ s ∈ stmtsOf (directory J member issued) entity p,
      SatisfiedBy want M ((directory J member issued).cfg entity).payload s.payload) :
    ∃ out, (getVerified V st entity stopAt).1 = .ok out ∧ out ≠ [] ∧ (∀ p, Up (directory J member issued) entity p → ∃ tc ∈ out, Resolved (directory J member issued) want entity p tc) ∧
      ∀ tc ∈ out, ∃ p, Up (directory J member issued) entity p ∧ Resolved (directory J member issued) want entity p tc := by
  refine C109_resolved_partial V (world J member host issued) st now h stopAt entity _ _ rank want M hW w.dated w.plainHints ((w.lasting hnow.2).steady _) hst ho ht hp
    (w.wellRun V.P now stopAt hnow hstop) ⟨m, he⟩ (w.id _ _ he).2.2 hfuel ?_ ?_ hcon hpol
  · rw [w.read he, if_neg hhints]; simp
  · rw [(w.cfg he).2.metadata, if_pos hmd]; simp

/-- An authority that has registered nothing but keys, and entity types without policies, for an entity. -/
structure OnlyKeys (A : Server.Authority) (e : String) (reg : Dict Val) : Prop where
  entry : ∀ k ∈ ["metadata", "metadata_policy", "constraints"], reg.get? k = none
  entity : A.policy.get? e = none
  types : ∀ ts t, reg.get? "entity_types" = some (.arr ts) → .str t ∈ ts → A.policy.get? t = none

theorem OnlyKeys.kwargs {J : Jose} {A : Server.Authority} {e : String} {ks : List Key} {reg kw : Dict Val} (r : Registered J A e ks reg) (o : OnlyKeys A e reg)
    (h : (Server.withPolicies A e (Server.addHints A.entityId reg)).1 = .ok kw) : ∀ k ∈ ["metadata", "metadata_policy", "constraints"], kw.get? k = none := by
  intro k hk
  have hk' : k ≠ "authority_hints" ∧ k ≠ "entity_types" := by
    simp only [List.mem_cons, List.not_mem_nil, or_false] at hk
    rcases hk with rfl | rfl | rfl <;> decide
  have hr : (Server.addHints A.entityId reg).get? k = none := by rw [Server.get?_addHints _ _ _ hk'.1, o.entry k hk]
  have he : (Server.addHints A.entityId reg).get? "entity_types" = reg.get? "entity_types" := Server.get?_addHints _ _ _ (by decide)
  generalize Server.addHints A.entityId reg = r' at h hr he
  simp only [Server.withPolicies, o.entity, he] at h
  cases hts : reg.get? "entity_types" with
  | none => rw [hts] at h; simp only [Except.ok.injEq] at h; rw [← h, hr]
  | some x =>
    obtain ⟨ts, rfl⟩ := r.types x hts
    rw [hts] at h
    simp only [pyIter] at h
    cases htp : Server.typePolicies A.policy (ts.map .str) [] [] with
    | error e => rw [htp] at h; cases h
    | ok y =>
      obtain ⟨md, mp⟩ := y
      obtain ⟨t1, t2⟩ := Server.typePolicies_get? _ _ _ _ _ _ htp
      have e1 : md = [] := by
        cases md with
        | nil => rfl
        | cons b bs =>
          have := t1 b.1
          rw [Dict.get?_cons, if_pos rfl] at this
          by_cases hb : Val.str b.1 ∈ ts.map Val.str
          · rw [if_pos hb, o.types _ b.1 hts hb] at this; simp at this
          · rw [if_neg hb] at this; simp at this
      have e2 : mp = [] := by
        cases mp with
        | nil => rfl
        | cons b bs =>
          have := t2 b.1
          rw [Dict.get?_cons, if_pos rfl] at this
          by_cases hb : Val.str b.1 ∈ ts.map Val.str
          · rw [if_pos hb, o.types _ b.1 hts hb] at this; simp at this
          · rw [if_neg hb] at this; simp at this
      subst e1 e2
      rw [htp] at h
      simp only [Except.ok.injEq] at h
      rw [← h, Server.get?_dropTypes _ _ hk'.2, hr]

/-- The last authority of a way up is an anchor. -/
theorem Up.last {D : Directory} {e : String} {p : List String} (h : Up D e p) {S : String → Prop} (hS : ∀ e hs a, S e → (D.cfg e).payload.hints = some hs → a ∈ hs → S a) (he : S e) :
    ∃ a, p.getLast? = some a ∧ S a ∧ (D.cfg a).payload.hints = none := by
  induction h with
  | top hh ha hn => exact ⟨_, rfl, hS _ _ _ he hh ha, hn⟩
  | @step e hs a p hh ha hup ih =>
    obtain ⟨b, h1, h2, h3⟩ := ih (hS _ _ _ he hh ha)
    refine ⟨b, ?_, h2, h3⟩
    cases p with
    | nil => simp at h1
    | cons x p => rw [List.getLast?_cons_cons]; exact h1

/-- Where authorities register only keys, what an entity declares is within constraints and satisfies the policies, as there are none. -/
theorem keys_only (L : Lib) (J : Jose) (member : String → Option Member) (host : Val → Option String) (jar : KeyJar) (issued now : Int) (P : Collect.Params) (stopAt entity : String) (m : Member)
    (rank : String → Nat) (w : WellKept J L member host jar rank) (hnow : now < issued + 86400 - P.delta ∧ now < issued + 86400) (hstop : Stop member stopAt) (he : member entity = some m)
    (hurl : ∀ e m, member e = some m → Constraints.IsUrl e)
    (honly : ∀ e m a ma reg, member e = some m → a ∈ strs m.authority.hints → member a = some ma → ma.authority.subordinate.get? e = some reg → OnlyKeys ma.authority e reg) :
    (∀ p, Up (directory J member issued) entity p → WithinConstraints ((stmtsOf (directory J member issued) entity p).map (·.payload)) ((directory J member issued).cfg entity).payload) ∧
    (∀ p, Up (directory J member issued) entity p → ∀ s ∈ stmtsOf (directory J member issued) entity p,
      SatisfiedBy (fun _ _ => .one .null .null) (fun _ => []) ((directory J member issued).cfg entity).payload s.payload) ∧
    ∀ p, Up (directory J member issued) entity p → ∀ s ∈ stmtsOf (directory J member issued) entity p, ∀ t, ((toP s.payload).rule t).policy = [] ∧ ((toP s.payload).rule t).metadata = [] := by
  have wr := w.wellRun (issued := issued) P now stopAt hnow hstop
  -- every statement says nothing but keys
  have bare : ∀ p, Up (directory J member issued) entity p → ∀ s ∈ stmtsOf (directory J member issued) entity p,
      s.payload.metadata = none ∧ s.payload.policy = [] ∧ s.payload.constraints = none ∧ Constraints.IsUrl s.payload.sub := by
    intro p hup s hs
    obtain ⟨a, e, hs', ⟨me, k1⟩, k2, k3, rfl⟩ := wr.mem_stmtsOf hup ⟨m, he⟩ s hs
    have k3' : a ∈ strs me.authority.hints := by
      rw [w.read k1] at k2
      split at k2
      · cases k2
      · cases k2; exact k3
    obtain ⟨ma, reg, -, -, h1, h2, h3, -⟩ := w.superior e me a k1 k3'
    obtain ⟨hid, hne, -⟩ := w.id a ma h1
    obtain ⟨d, kw, f1, f2, f3, f4⟩ := h3.fetched (issued := issued) (w.id e me k1).2.1 (by rw [hid]; rintro rfl; omega) (by rw [hid]; exact hne)
    have hk := (honly e me a ma reg k1 k3' h1 h3.entry).kwargs h3 f3
    obtain ⟨-, -, -, c4, -⟩ := Server.C59_payload _ _ _ _ _ _ _ f4
    rw [hid] at f1
    have hab : (directory J member issued).about a e = token J a d := by simp [directory, h1, f1, Except.toOption]
    rw [hab]
    refine ⟨?_, ?_, ?_, ?_⟩
    · simp [token, decode, c4 "metadata" (by simp), hk "metadata" (by simp)]
    · simp [token, decode, c4 "metadata_policy" (by simp), hk "metadata_policy" (by simp)]
    · simp [token, decode, c4 "constraints" (by simp), hk "constraints" (by simp)]
    · show Constraints.IsUrl (decode J d).sub
      rw [f2.sub]; exact hurl e me k1
  have rule : ∀ p, Up (directory J member issued) entity p → ∀ s ∈ stmtsOf (directory J member issued) entity p, ∀ t, ((toP s.payload).rule t).policy = [] ∧ ((toP s.payload).rule t).metadata = [] := by
    intro p hup s hs t
    obtain ⟨b1, b2, -, -⟩ := bare p hup s hs
    simp [toP, Policy.PStatement.rule, Payload.md, b1, b2]
  refine ⟨?_, ?_, rule⟩
  · intro p hup
    have none_ : ∀ q ∈ (stmtsOf (directory J member issued) entity p).map (·.payload), (toC q).constraints = none ∧ Constraints.IsUrl (toC q).sub := by
      intro q hq
      obtain ⟨s, hs, rfl⟩ := List.mem_map.1 hq
      obtain ⟨-, -, b3, b4⟩ := bare p hup s hs
      exact ⟨b3, b4⟩
    have lists : ∀ c : Constraints.CStatement, c.constraints = none → c.permitted = [] ∧ c.excluded = [] ∧ c.naming = none := by
      intro c hc
      simp [Constraints.CStatement.permitted, Constraints.CStatement.excluded, Constraints.CStatement.naming, hc]
    have keeps : ∀ s sts, (∀ st ∈ sts, (st : Constraints.CStatement).constraints = none) → Constraints.Keeps s sts := by
      intro s sts hst st hm
      obtain ⟨l1, l2, -⟩ := lists st (hst st hm)
      simp [l1, l2]
    have allC : ∀ st ∈ ((stmtsOf (directory J member issued) entity p).map (·.payload)).map toC, st.constraints = none := by
      intro st hst
      obtain ⟨q, hq, rfl⟩ := List.mem_map.1 hst
      exact (none_ q hq).1
    have hleaf : (toC ((directory J member issued).cfg entity).payload).constraints = none := (w.cfg he).2.constraints
    refine ⟨?_, ⟨?_, ?_, ?_⟩, ?_, ⟨?_, ?_, ?_⟩, ?_⟩
    · intro q hq
      obtain ⟨n1, n2⟩ := none_ q hq
      obtain ⟨l1, l2, -⟩ := lists _ n1
      exact ⟨n2, by simp [l1], by simp [l2]⟩
    · show Constraints.IsUrl ((directory J member issued).cfg entity).payload.sub
      rw [(w.cfg he).2.sub, (w.id _ _ he).1]
      exact hurl _ _ he
    · simp [(lists _ hleaf).1]
    · simp [(lists _ hleaf).2.1]
    · intro q hq n hn
      rw [(lists _ (none_ q hq).1).2.2] at hn
      cases hn
    · intro pre st post c mm hs hc
      rw [allC st (by rw [hs]; simp)] at hc
      cases hc
    · intro pre st post hs
      exact keeps _ _ fun st' hst' => allC st' (by rw [hs]; simp only [List.mem_append, List.mem_cons, List.not_mem_nil, or_false] at hst' ⊢; exact hst'.elim Or.inl fun h => Or.inr (Or.inl h))
    · exact keeps _ _ allC
    · unfold Constraints.Narrowing
      refine List.pairwise_of_forall_mem_list ?_
      intro st hst st' hst' o ho
      rw [(lists _ (allC st hst)).1] at ho
      cases ho
  · intro p hup s hs t md _
    obtain ⟨r1, r2⟩ := rule p hup s hs t
    rw [r1, r2]
    refine ⟨⟨?_, ?_⟩, ?_, ?_⟩
    · intro c cp hc; rw [r1] at hc; cases hc
    · intro c v hc; rw [r2] at hc; cases hc
    · intro c hc; cases hc
    · intro c hc; cases hc

/-- C133 for federations whose authorities register only keys: every member below an anchor is resolved, with a chain for each way up to an anchor and no other,
all with all the metadata it declares. -/
theorem C133_keys_suffice (V : Env) (J : Jose) (member : String → Option Member) (host : Val → Option String) (issued now : Int) (st : State) (h : List Collect.FRun) (stopAt entity : String)
    (m : Member) (rank : String → Nat)
    (w : WellKept J V.L member host st.jar rank) (hW : V.W = (world J member host issued).at now)
    (hst : st.coll = Collect.runAll V.L.toCrypto V.P (h.map (Collect.FRun.run (world J member host issued)))) (ho : h.Pairwise fun a b => a.time ≤ b.time)
    (ht : ∀ r ∈ h, r.time ≤ now) (hp : ∀ r ∈ h, Collect.Plain r.entity)
    (hnow : now < issued + 86400 - V.P.delta ∧ now < issued + 86400) (hstop : Stop member stopAt) (he : member entity = some m) (hfuel : rank entity < V.fuel)
    (hhints : strs m.authority.hints ≠ []) (hmd : m.authority.metadata.truthy = true)
    (hurl : ∀ e m, member e = some m → Constraints.IsUrl e)
    (honly : ∀ e m a ma reg, member e = some m → a ∈ strs m.authority.hints → member a = some ma → ma.authority.subordinate.get? e = some reg → OnlyKeys ma.authority e reg) :
    ∃ out, (getVerified V st entity stopAt).1 = .ok out ∧ out ≠ [] ∧
      (∀ p, Up (directory J member issued) entity p → ∃ tc ∈ out, tc.chain = (stmtsOf (directory J member issued) entity p ++ [(directory J member issued).cfg entity]).map some ∧
        p.getLast? = some tc.anchor) ∧ ∀ tc ∈ out,
      (∃ p, Up (directory J member issued) entity p ∧ tc.chain = (stmtsOf (directory J member issued) entity p ++ [(directory J member issued).cfg entity]).map some ∧ p.getLast? = some tc.anchor) ∧
      (∃ ma, member tc.anchor = some ma ∧ strs ma.authority.hints = []) ∧
      ∀ t md, (objs m.authority.metadata).get? t = some md → ∃ got, tc.metadata.get? t = some (.obj got) ∧ ∀ c v, md.get? c = some v → Dict.get? got c = some v := by
  have wr := w.wellRun (issued := issued) V.P now stopAt hnow hstop
  have hup : ∀ e hs a, (∃ m, member e = some m) → ((directory J member issued).cfg e).payload.hints = some hs → a ∈ hs → ∃ m, member a = some m :=
    fun e hs a he hh ha => ((wr.hints e hs he hh).2 a ha).1
  obtain ⟨hcon, hpol, rule⟩ := keys_only V.L J member host st.jar issued now V.P stopAt entity m rank w hnow hstop he hurl honly
  obtain ⟨out, h1, h2, h4, h3⟩ := C133_resolved_partial V J member host issued now st h stopAt entity m rank (fun _ _ => .one .null .null) (fun _ => []) w hW hst ho ht hp hnow hstop he hfuel hhints hmd hcon hpol
  refine ⟨out, h1, h2, fun p hup' => ?_, fun tc htc => ?_⟩
  · obtain ⟨tc, htc, hr⟩ := h4 p hup'
    exact ⟨tc, htc, hr.chain, hr.anchor⟩
  obtain ⟨p, hup', hr⟩ := h3 tc htc
  refine ⟨⟨p, hup', hr.chain, hr.anchor⟩, ?_, ?_⟩
  · obtain ⟨a, l1, ⟨ma, l2⟩, l3⟩ := hup'.last (S := fun e => ∃ m, member e = some m) hup ⟨m, he⟩
    rw [hr.anchor] at l1
    cases l1
    refine ⟨ma, l2, ?_⟩
    rw [w.read l2] at l3
    split at l3
    · assumption
    · cases l3
  · intro t md hmdt
    obtain ⟨got, g1, -, g3⟩ := hr.metadata t md (by simp [Payload.md, (w.cfg (issued := issued) he).2.metadata, hmd, hmdt])
    refine ⟨got, g1, fun c v hc => g3 c v hc ?_⟩
    intro q hq
    obtain ⟨s, hs, rfl⟩ := List.mem_map.1 hq
    rw [(rule p hup' s hs t).1]
    simp [Dict.keys]

/-! ### An example

`leaf` is registered with `im`, which is registered with `ta`; `ta` may have a policy for what is below `im`; `im` has answered requests before and has a trust mark.
-/
namespace Ex
def J : Jose where
  keys v := match v with
    | .int n => [n.toNat]
    | _ => []
  sig s _ := keyOf s
def serves (ep : String) : Val := .obj [("federation_entity", .obj [("federation_fetch_endpoint", .str ep)])]
def mTa (pol : Dict (Dict Val)) : Member :=
  { authority := { entityId := "https://ta", ownKeys := .int 1, metadata := serves "https://ta/fetch", hints := .arr [], subordinate := [("https://im", [("jwks", .int 2)])], policy := pol } }
def imRegistry : Dict (Dict Val) := [("https://leaf", [("jwks", .int 3), ("entity_types", .arr [.str "openid_relying_party"])])]
/-- `im` issues trust marks too. -/
def imEntity : Dict Val := [("federation_fetch_endpoint", .str "https://im/fetch"), ("federation_trust_mark_status_endpoint", .str "https://im/status")]
def mIm : Member where
  authority := { entityId := "https://im", ownKeys := .int 2, metadata := .obj [("federation_entity", .obj imEntity)], hints := .arr [.str "https://ta"], subordinate := imRegistry }
  marks := .arr [.str "mark"]
  requests := [(-5, { sub := some "https://leaf" }), (-3, { iss := some "https://im", sub := some "https://nobody" })]
def mLeaf : Member where
  authority := { entityId := "https://leaf", ownKeys := .int 3, hints := .arr [.str "https://im"], metadata := .obj [("openid_relying_party", .obj [("scopes", .arr [.str "email", .str "openid"])])] }
def member133 (pol : Dict (Dict Val)) : String → Option Member
  | "https://ta" => some (mTa pol)
  | "https://im" => some mIm
  | "https://leaf" => some mLeaf
  | _ => none
def host133 : Val → Option String
  | .str "https://ta/fetch" => some "https://ta"
  | .str "https://im/fetch" => some "https://im"
  | _ => none
/-- Scopes are limited for what is below `im`. -/
def scopes133 : Dict (Dict Val) :=
  [("https://im", [("metadata_policy", .obj [("openid_relying_party", .obj [("scopes", .obj [("subset_of", .arr [.str "openid", .str "email", .str "phone"])])])])])]

theorem member133_some {pol : Dict (Dict Val)} {e : String} {m : Member} (h : member133 pol e = some m) :
    (e = "https://ta" ∧ m = mTa pol) ∨ (e = "https://im" ∧ m = mIm) ∨ (e = "https://leaf" ∧ m = mLeaf) := by
  unfold member133 at h
  split at h <;> simp_all

theorem wellKept133 (pol : Dict (Dict Val)) (hpol : pol = [] ∨ pol = scopes133) : WellKept J L (member133 pol) host133 [("https://ta", [1])] rank109 where
  id e m h := by
    rcases member133_some h with ⟨rfl, rfl⟩ | ⟨rfl, rfl⟩ | ⟨rfl, rfl⟩ <;> exact ⟨rfl, by decide, by decide⟩
  signs e m d h := by
    rcases member133_some h with ⟨rfl, rfl⟩ | ⟨rfl, rfl⟩ | ⟨rfl, rfl⟩
    · exact ⟨1, List.mem_singleton.2 rfl, rfl, rfl⟩
    · exact ⟨2, by decide, rfl, rfl⟩
    · exact ⟨3, by decide, rfl, rfl⟩
  time j x t hx ht := by
    simp only [L, notExpired, hx, decide_eq_true_eq]
    omega
  hints e m h := by
    rcases member133_some h with ⟨rfl, rfl⟩ | ⟨rfl, rfl⟩ | ⟨rfl, rfl⟩
    · exact .inr ⟨[], rfl⟩
    · exact .inr ⟨["https://ta"], rfl⟩
    · exact .inr ⟨["https://im"], rfl⟩
  superior e m a h ha := by
    rcases member133_some h with ⟨rfl, rfl⟩ | ⟨rfl, rfl⟩ | ⟨rfl, rfl⟩
    · cases ha
    · have : a = "https://ta" := by simpa [mIm, strs] using ha
      subst this
      refine ⟨mTa pol, [("jwks", .int 2)], [("federation_fetch_endpoint", .str "https://ta/fetch")], .str "https://ta/fetch", rfl, by decide, ⟨rfl, ⟨.int 2, rfl, rfl⟩, ?_, ?_, ?_⟩, rfl, rfl, rfl, rfl⟩
      · intro v hv; cases hv
      · rcases hpol with rfl | rfl <;> decide
      · rcases hpol with rfl | rfl <;> rfl
    · have : a = "https://im" := by simpa [mLeaf, strs] using ha
      subst this
      refine ⟨mIm, [("jwks", .int 3), ("entity_types", .arr [.str "openid_relying_party"])], imEntity, .str "https://im/fetch", rfl, by decide,
        ⟨rfl, ⟨.int 3, rfl, rfl⟩, ?_, ?_, rfl⟩, rfl, rfl, rfl, rfl⟩
      · intro v hv
        cases hv
        exact ⟨["openid_relying_party"], rfl⟩
      · decide
  requests e m h r hr := by
    rcases member133_some h with ⟨rfl, rfl⟩ | ⟨rfl, rfl⟩ | ⟨rfl, rfl⟩
    · cases hr
    · simp only [mIm, List.mem_cons, List.not_mem_nil, or_false] at hr
      rcases hr with rfl | rfl
      · exact .inl rfl
      · exact .inr (.inr (.inl rfl))
    · cases hr
  anchors e m h hh := by
    rcases member133_some h with ⟨rfl, rfl⟩ | ⟨rfl, rfl⟩ | ⟨rfl, rfl⟩
    · refine ⟨by decide, fun k hk => ?_⟩
      have hk : k ∈ [1] := hk
      simpa [KeyJar.keysOf, Dict.get?] using hk
    · cases hh
    · cases hh

theorem up133 {pol : Dict (Dict Val)} (hpol : pol = [] ∨ pol = scopes133) {p : List String} (h : Up (directory J (member133 pol) 0) "https://leaf" p) : p = ["https://im", "https://ta"] := by
  have w := wellKept133 pol hpol
  have hleaf : ((directory J (member133 pol) 0).cfg "https://leaf").payload.hints = some ["https://im"] := w.read (e := "https://leaf") (m := mLeaf) rfl
  have him : ((directory J (member133 pol) 0).cfg "https://im").payload.hints = some ["https://ta"] := w.read (e := "https://im") (m := mIm) rfl
  have hta : ((directory J (member133 pol) 0).cfg "https://ta").payload.hints = none := w.read (e := "https://ta") (m := mTa pol) rfl
  cases h with
  | top hh ha hn =>
    rw [hleaf] at hh; cases hh
    simp only [List.mem_singleton] at ha
    subst ha
    rw [him] at hn; cases hn
  | step hh ha hp =>
    rw [hleaf] at hh; cases hh
    simp only [List.mem_singleton] at ha
    subst ha
    cases hp with
    | top hh ha hn =>
      rw [him] at hh; cases hh
      simp only [List.mem_singleton] at ha
      rw [ha]
    | step hh ha hp =>
      rw [him] at hh; cases hh
      simp only [List.mem_singleton] at ha
      subst ha
      cases hp with
      | top hh => rw [hta] at hh; cases hh
      | step hh => rw [hta] at hh; cases hh
end Ex

theorem Ex.url133 : ∀ e m, Ex.member133 [] e = some m → Constraints.IsUrl e := by
  have hu : ∀ s : String, (Constraints.labelsOf s).isSome = true → Constraints.IsUrl s := fun s hs => Constraints.isUrl_iff.2 (Option.isSome_iff_exists.1 hs)
  intro e m h
  rcases Ex.member133_some h with ⟨rfl, rfl⟩ | ⟨rfl, rfl⟩ | ⟨rfl, rfl⟩ <;> exact hu _ (by decide +kernel)

theorem Ex.onlyKeys133 : ∀ e m a ma reg, Ex.member133 [] e = some m → a ∈ strs m.authority.hints → Ex.member133 [] a = some ma → ma.authority.subordinate.get? e = some reg → OnlyKeys ma.authority e reg := by
  intro e m a ma reg h ha hma hreg
  rcases Ex.member133_some h with ⟨rfl, rfl⟩ | ⟨rfl, rfl⟩ | ⟨rfl, rfl⟩
  · cases ha
  · have : a = "https://ta" := by simpa [Ex.mIm, strs] using ha
    subst this
    cases hma
    have : reg = [("jwks", .int 2)] := (Option.some.inj hreg).symm
    subst this
    exact ⟨by decide, rfl, fun ts t hts => by cases hts⟩
  · have : a = "https://im" := by simpa [Ex.mLeaf, strs] using ha
    subst this
    cases hma
    have : reg = [("jwks", .int 3), ("entity_types", .arr [.str "openid_relying_party"])] := (Option.some.inj hreg).symm
    subst this
    exact ⟨by decide, rfl, fun ts t _ _ => rfl⟩

example : ∃ out, (getVerified (Ex.env ((world Ex.J (Ex.member133 []) Ex.host133 0).at 100)) Ex.st "https://leaf").1 = .ok out ∧ out ≠ [] ∧ ∀ tc ∈ out,
    (∃ ma, Ex.member133 [] tc.anchor = some ma ∧ strs ma.authority.hints = []) ∧
    ∀ t md, (objs Ex.mLeaf.authority.metadata).get? t = some md → ∃ got, tc.metadata.get? t = some (.obj got) ∧ ∀ c v, md.get? c = some v → Dict.get? got c = some v := by
  obtain ⟨out, h1, h2, -, h3⟩ := C133_keys_suffice (Ex.env ((world Ex.J (Ex.member133 []) Ex.host133 0).at 100)) Ex.J (Ex.member133 []) Ex.host133 0 100 Ex.st [] "" "https://leaf" Ex.mLeaf Ex.rank109
    (Ex.wellKept133 [] (.inl rfl)) rfl rfl (by simp) (by simp) (by simp) (by decide) (.none rfl) rfl (by decide) (by decide) rfl Ex.url133 Ex.onlyKeys133
  exact ⟨out, h1, h2, fun tc htc => (h3 tc htc).2⟩

example : ∃ out, (getVerified (Ex.env ((world Ex.J (Ex.member133 Ex.scopes133) Ex.host133 0).at 100)) Ex.st "https://leaf").1 = .ok out ∧ out ≠ [] ∧
    (∀ p, Up (directory Ex.J (Ex.member133 Ex.scopes133) 0) "https://leaf" p → ∃ tc ∈ out, Resolved (directory Ex.J (Ex.member133 Ex.scopes133) 0) Ex.want109 "https://leaf" p tc) ∧
    ∀ tc ∈ out, ∃ p, Up (directory Ex.J (Ex.member133 Ex.scopes133) 0) "https://leaf" p ∧ Resolved (directory Ex.J (Ex.member133 Ex.scopes133) 0) Ex.want109 "https://leaf" p tc := by
  have hu : ∀ s : String, (Constraints.labelsOf s).isSome = true → Constraints.IsUrl s := fun s hs => Constraints.isUrl_iff.2 (Option.isSome_iff_exists.1 hs)
  have stm : stmtsOf (directory Ex.J (Ex.member133 Ex.scopes133) 0) "https://leaf" ["https://im", "https://ta"] =
      [⟨{ iss := "https://ta", sub := "https://im", exp := some 86400, jwks := some [2], hints := some ["https://ta"], policy := Ex.pol109 }, 1⟩,
       ⟨{ iss := "https://im", sub := "https://leaf", exp := some 86400, jwks := some [3], hints := some ["https://im"] }, 2⟩] := by decide +kernel
  have cfg : ((directory Ex.J (Ex.member133 Ex.scopes133) 0).cfg "https://leaf").payload =
      { iss := "https://leaf", sub := "https://leaf", exp := some 86400, jwks := some [3], hints := some ["https://im"], metadata := some (Ex.rp (.arr [.str "email", .str "openid"])) } := by
    decide +kernel
  refine C133_resolved_partial (Ex.env ((world Ex.J (Ex.member133 Ex.scopes133) Ex.host133 0).at 100)) Ex.J (Ex.member133 Ex.scopes133) Ex.host133 0 100 Ex.st [] "" "https://leaf" Ex.mLeaf Ex.rank109
    Ex.want109 (fun _ => []) (Ex.wellKept133 _ (.inr rfl)) rfl rfl (by simp) (by simp) (by simp) (by decide) (.none rfl) rfl (by decide) (by decide) rfl ?_ ?_
  · intro p hp
    rw [Ex.up133 (.inr rfl) hp, stm, cfg]
    refine ⟨?_, ⟨hu _ (by decide +kernel), fun x hx => (by cases hx), fun x hx => (by cases hx)⟩, ?_, ⟨?_, ?_, ?_⟩, ?_⟩
    · intro q hq
      simp only [List.map_cons, List.map_nil, List.mem_cons, List.not_mem_nil, or_false] at hq
      rcases hq with rfl | rfl <;> exact ⟨hu _ (by decide +kernel), fun x hx => (by cases hx), fun x hx => (by cases hx)⟩
    · intro q hq n hn
      simp only [List.map_cons, List.map_nil, List.mem_cons, List.not_mem_nil, or_false] at hq
      rcases hq with rfl | rfl <;> cases hn
    · intro pre st post c mm hs hc
      have hm : st ∈ pre ++ st :: post := by simp
      rw [← hs] at hm
      simp only [List.map_cons, List.map_nil, List.mem_cons, List.not_mem_nil, or_false] at hm
      rcases hm with rfl | rfl <;> cases hc
    · intro pre st post hs st' hm
      have hm : st' ∈ pre ++ st :: post := by
        simp only [List.mem_append, List.mem_cons, List.not_mem_nil, or_false] at hm ⊢; exact hm.elim Or.inl fun h => Or.inr (Or.inl h)
      rw [← hs] at hm
      simp only [List.map_cons, List.map_nil, List.mem_cons, List.not_mem_nil, or_false] at hm
      rcases hm with rfl | rfl <;> exact ⟨fun x hx => (by cases hx), fun h => absurd rfl h⟩
    · intro st' hm
      simp only [List.map_cons, List.map_nil, List.mem_cons, List.not_mem_nil, or_false] at hm
      rcases hm with rfl | rfl <;> exact ⟨fun x hx => (by cases hx), fun h => absurd rfl h⟩
    · unfold Constraints.Narrowing
      refine List.pairwise_of_forall_mem_list ?_
      intro st hm st' _ o ho
      simp only [List.map_cons, List.map_nil, List.mem_cons, List.not_mem_nil, or_false] at hm
      rcases hm with rfl | rfl <;> cases ho
  · intro p hp s hs t md ht
    rw [Ex.up133 (.inr rfl) hp, stm] at hs
    rw [cfg] at ht
    have ht : t = "openid_relying_party" ∧ md = [("scopes", .arr [.str "email", .str "openid"])] := by
      simp only [Payload.md, Option.getD_some, Ex.rp, Dict.get?_cons, Dict.get?_nil] at ht
      split at ht
      · next h => exact ⟨h.symm, (Option.some.inj ht).symm⟩
      · cases ht
    obtain ⟨rfl, rfl⟩ := ht
    simp only [List.mem_cons, List.not_mem_nil, or_false] at hs
    rcases hs with rfl | rfl
    · refine ⟨⟨?_, fun c v hc => (by cases hc)⟩, fun c _ hc => (by cases hc), ?_⟩
      · intro c cp hc
        have hc : Dict.get? [("scopes", [("subset_of", Val.arr [.str "openid", .str "email", .str "phone"])])] c = some cp := hc
        rw [Dict.get?_cons] at hc
        split at hc
        · cases hc
          refine ⟨by simp, by decide, by decide, ⟨rfl, rfl, ?_, ?_, ?_, ?_, ?_⟩, ?_, ?_⟩ <;> simp [Dict.get?, Val.hashable]
        · cases hc
      · intro c hc
        have hc : c ∈ ["scopes"] := hc
        simp only [List.mem_singleton] at hc
        subst hc
        rfl
    · exact ⟨⟨fun c cp hc => (by cases hc), fun c v hc => (by cases hc)⟩, fun c _ hc => (by cases hc), fun c hc => (by cases hc)⟩

end Fed.Chains
