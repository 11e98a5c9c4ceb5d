import Verif.Server.ResolveProps
import Verif.Chains.Upheld
/-
C90 and C91 for a resolver in a federation of entities that run this software: the federation is orderly.
-/
namespace Fed.Server
open Fed Fed.Verify Fed.Chains

/-- No time kept with the statements is before `T`, if no statement served expires before. -/
theorem kept_times {C : Crypto} {P : Collect.Params} {W : Collect.World} {T : Int} (hw : ∀ ep a e s t, W.fetch ep a e = .ok (some s) → s.payload.exp = some t → T ≤ t) :
    Collect.Kept C P W fun st => ∀ k t, st.es.get? k = some (.time t) → T ≤ t where
  lookup st k h := h
  store st k j _ _ h := h
  statement st e a h := by
    have fetched : ∀ st' : Collect.State, (∀ k t, st'.es.get? k = some (.time t) → T ≤ t) → ∀ k t, (Collect.fetchStatement C P W st' e a).2.es.get? k = some (.time t) → T ≤ t := by
      intro st' h' k t hk
      rcases Collect.fetchStatement_es C P W st' e a with ⟨h1, -⟩ | ⟨ep, j, -, -, -, h1⟩ | ⟨ep, j, x, h1, h2, -, h3⟩
      · rw [h1] at hk
        exact h' k t hk
      · rw [h1, Dict.get?_set] at hk
        split at hk
        · cases hk
        · exact h' k t hk
      · rw [h3, Dict.get?_set] at hk
        split at hk
        · cases hk
          exact hw _ _ _ _ _ h1 h2
        · rw [Dict.get?_set] at hk
          split at hk
          · cases hk
          · exact h' k t hk
    unfold Collect.getStatement
    split
    · exact fetched st h
    · exact h
    · split
      · split
        · refine fetched _ fun k t hk => ?_
          simp only at hk
          rw [Collect.get?_drop] at hk
          split at hk
          · cases hk
          · rw [Collect.get?_drop] at hk
            split at hk
            · cases hk
            · exact h k t hk
        · exact h
      · exact h

section
variable {V : Env} {J : Jose} {member : String → Option Member} {host : Val → Option String} {issued now : Int} {st : State} {h : List Collect.FRun} {stopAt anchor : String} {rank : String → Nat}

/-- Statements are served for a day at least. (Subordinates may be registered for less, see `create_entity_statement` (/repo/src/fedservice/entity_statement/create.py 15-71).) -/
def LastADay (J : Jose) (member : String → Option Member) (host : Val → Option String) (issued : Int) : Prop :=
  ∀ ep a e s t, (world J member host issued).fetch ep a e = .ok (some s) → s.payload.exp = some t → issued + 86400 ≤ t

/-- A federation of entities that run this software is orderly, as far as its members are concerned. -/
theorem orderly_of_running (r : Running V J member host issued now st h stopAt rank) (hlife : LastADay J member host issued) {entity : String} {m : Member} (he : member entity = some m) :
    Orderly V st entity := by
  have wr := r.kept.wellRun (issued := issued) V.P now stopAt r.fresh r.stop
  have hcoh : Collect.Coherent V.L.toCrypto V.P (world J member host issued) now st.coll := by
    rw [r.coll]
    exact Collect.runAll_coherent r.kept.dated r.kept.plainHints h now (r.kept.lasting r.fresh.2) r.order r.past r.plain
  have pub : ∀ t a j, Collect.publishedConfig V.L.toCrypto (world J member host issued) t a = some j → (∃ m, member a = some m) ∧ j = (directory J member issued).cfg a := by
    intro t a j hj
    obtain ⟨h1, -⟩ := Collect.publishedConfig_iff.1 hj
    cases hm : member a with
    | none => simp [world, hm] at h1
    | some ma =>
      rw [wr.config a ⟨ma, hm⟩] at h1
      cases h1
      exact ⟨⟨ma, rfl⟩, rfl⟩
  have cfg : ∀ a j, Collect.ConfigFrom V.L.toCrypto V.W st.coll a j → (∃ m, member a = some m) ∧ j = (directory J member issued).cfg a := by
    rintro a j (hc | ⟨h1, h2⟩)
    · exact pub now a j (hcoh.config a _ hc)
    · rw [r.world] at h1 h2
      exact pub now a j (Collect.publishedConfig_iff.2 ⟨h1, h2⟩)
  have times : ∀ k t, st.coll.es.get? k = some (.time t) → issued + 86400 ≤ t := by
    rw [r.coll]
    have : ∀ (h : List Collect.FRun) (s : Collect.State), (∀ k t, s.es.get? k = some (.time t) → issued + 86400 ≤ t) →
        ∀ k t, ((h.map (Collect.FRun.run (world J member host issued))).foldl (fun st r => (Collect.collect V.L.toCrypto V.P r.world r.fuel st r.entity r.stopAt).2) s).es.get? k = some (.time t) →
          issued + 86400 ≤ t := by
      intro h
      induction h with
      | nil => exact fun s hs => hs
      | cons x xs ih =>
        intro s hs
        simp only [List.map_cons, List.foldl_cons]
        exact ih _ ((kept_times (W := (x.run (world J member host issued)).world) hlife).collect _ _ _ _ hs)
    exact this h {} (by simp)
  have hW : V.W.now = now := by rw [r.world]; rfl
  refine ⟨(r.kept.id _ _ he).2.2, ?_, ?_, ?_, ?_, ?_, ?_, ?_⟩
  · intro a j hs hj hh x hx
    obtain ⟨⟨ma, hma⟩, rfl⟩ := cfg a j hj
    obtain ⟨mx, hmx⟩ := ((wr.hints a hs ⟨ma, hma⟩ hh).2 x hx).1
    exact (r.kept.id _ _ hmx).2.2
  · intro a e s c hs hc hh ha hpa hpe hs'
    obtain ⟨⟨me, hme⟩, rfl⟩ := cfg e c hc
    obtain ⟨fe, ep, w1, w2, w3, w4⟩ := wr.served e hs a ⟨me, hme⟩ hh ha
    suffices s = (directory J member issued).about a e by
      rw [this]
      exact (wr.stated e hs a ⟨me, hme⟩ hh ha).1
    rcases hs' with hs' | ⟨j, fe', ep', h1, h2, h3, h4⟩
    · obtain ⟨j, j0, ep', w, e1, h1, h2, h3, h4, -⟩ := hcoh.stmt a e hpa hpe _ hs'
      cases e1
      obtain ⟨-, rfl⟩ := pub _ _ _ h1
      obtain ⟨rfl, -⟩ := Collect.usableEndpoint_some h3
      obtain ⟨fe', g1, g2⟩ := Collect.getFetchEndpoint_some h2
      rw [w1] at g1; cases g1
      rw [w2] at g2; cases g2
      rw [w4] at h4; cases h4
      rfl
    · obtain ⟨-, rfl⟩ := cfg _ _ h1
      rw [w1] at h2; cases h2
      rw [w2] at h3; cases h3
      rw [r.world] at h4
      have h4 : (world J member host issued).fetch ep a e = .ok (some s) := h4
      rw [w4] at h4; cases h4
      rfl
  · intro j j' hj hj'
    rw [(cfg _ _ hj).2, (cfg _ _ hj').2]
  · intro j hj
    rw [(cfg _ _ hj).2, (wr.self entity ⟨m, he⟩).1]
  · intro j hj
    rw [(cfg _ _ hj).2, hW]
    exact wr.fresh entity ⟨m, he⟩
  · intro k t hk
    rw [hW]
    have := times k t hk
    have := r.fresh.1
    omega
  · intro ep a e s t hs ht
    rw [hW]
    rw [r.world] at hs
    have := hlife ep a e s t hs ht
    have := r.fresh.1
    omega
/-- C91 in a federation of entities that run this software: for every anchor at the top of a way up of a member the resolver answers, with the statements along such a way, the member's own first, and with
what they leave of the metadata the member declares. Missing: subordinates registered for less than a day; policies that change or refuse what is declared; documents issued anew. -/
theorem C91_federation_partial (R : Resolver) (r : Running V J member host issued now st h anchor rank) (hlife : LastADay J member host issued) {entity : String} {m : Member} (he : member entity = some m)
    (hfuel : rank entity < V.fuel) (hhints : strs m.authority.hints ≠ []) (hmd : m.authority.metadata.truthy = true) (want : String → String → Policy.Want) (M : String → Policy.Metadata)
    (hcon : ∀ p, Up (directory J member issued) entity p → WithinConstraints ((stmtsOf (directory J member issued) entity p).map (·.payload)) ((directory J member issued).cfg entity).payload)
    (hpol : ∀ p, Up (directory J member issued) entity p → ∀ s ∈ stmtsOf (directory J member issued) entity p, SatisfiedBy want M ((directory J member issued).cfg entity).payload s.payload)
    (hup : ∃ p, Up (directory J member issued) entity p ∧ p.getLast? = some anchor) :
    ∃ payload p md, (resolve R V st { sub := some entity, anchor := some anchor }).1 = .ok payload ∧ Up (directory J member issued) entity p ∧ p.getLast? = some anchor ∧
      payload.get? "trust_chain" = some (.arr ((stmtsOf (directory J member issued) entity p ++ [(directory J member issued).cfg entity]).reverse.map R.compact)) ∧
      payload.get? "metadata" = (some (.obj md)).filter Val.truthy ∧ AsDeclared want ((stmtsOf (directory J member issued) entity p).map (·.payload)) ((directory J member issued).cfg entity).payload md := by
  have ho := orderly_of_running r hlife he
  obtain ⟨out, g1, -, g2, g3⟩ := C133_resolved_partial V J member host issued now st h anchor entity m rank want M r.kept r.world r.coll r.order r.past r.plain r.fresh r.stop he hfuel hhints hmd hcon hpol
  obtain ⟨p, hp, hl⟩ := hup
  obtain ⟨tc, t1, t2⟩ := g2 p hp
  have ha : tc.anchor = anchor := by
    have := t2.anchor
    rw [hl] at this
    cases this
    rfl
  obtain ⟨payload, r1⟩ := C91_orderly_partial R V st entity anchor out tc ho g1 t1 ha
  obtain ⟨sub', anchor', out', tc', md, ch, e1, e2, h3, h4, h5, h6, h7⟩ := resolve_ok r1
  cases e1; cases e2
  rw [g1] at h3
  cases h3
  have hm := List.mem_of_find?_eq_some h4
  have hta : anchor = tc'.anchor := by simpa using List.find?_some h4
  obtain ⟨js, hj, hg⟩ := getChain_orderly R V st entity anchor ho out g1 tc' hm
  rw [hg] at h6
  cases h6
  obtain ⟨p', u1, u2⟩ := g3 tc' hm
  have hjs : js = stmtsOf (directory J member issued) entity p' ++ [(directory J member issued).cfg entity] := by
    have := u2.chain
    rw [hj] at this
    exact (List.map_inj_right (fun a b e => by cases e; rfl)).1 this
  obtain ⟨-, -, -, c4, -, -, -, -, -, -, -, c12⟩ := C59_payload _ _ _ _ _ _ _ h7
  refine ⟨payload, p', md, r1, u1, by rw [u2.anchor, hta], ?_, ?_, ?_⟩
  · rw [c12 "trust_chain" (by decide) (by decide), hjs]
    rfl
  · rw [c4 "metadata" (by simp)]
    rfl
  · simp only [chosenMetadata] at h5
    cases h5
    exact u2.metadata
end

/-- No subordinate is registered with a lifetime of its own. -/
def DefaultLifetimes (A : Authority) : Prop :=
  ∀ sub, (∀ reg, A.subordinate.get? sub = some reg → reg.get? "lifetime" = none) ∧ ((A.policy.get? sub).getD []).get? "lifetime" = none

theorem DefaultLifetimes.fetch {A : Authority} (h : DefaultLifetimes A) (t : Int) (req : FetchRequest) : DefaultLifetimes (Server.fetch A t req).2 := by
  have upd : ∀ sub reg, A.subordinate.get? sub = some reg → DefaultLifetimes { A with subordinate := A.subordinate.set sub (withPolicies A sub (addHints (req.issuer A) reg)).2 } := by
    intro sub reg hreg s
    refine ⟨fun reg' h' => ?_, (h s).2⟩
    simp only at h'
    rw [Dict.get?_set] at h'
    split at h'
    · cases h'
      have h1 : (addHints (req.issuer A) reg).get? "lifetime" = none := by
        unfold addHints
        split
        · exact (h sub).1 reg hreg
        · rw [Dict.get?_set_ne _ _ (by decide)]
          exact (h sub).1 reg hreg
      have h2 := (h sub).2
      rw [withPolicies_snd]
      split
      · rename_i p ps hp
        rw [Dict.get?_update, h1]
        rw [hp] at h2
        simpa using h2
      · exact h1
    · exact (h s).1 reg' h'
  unfold Server.fetch
  simp only
  split
  · exact h
  · rename_i sub _
    split
    · exact h
    · split
      · exact h
      · exact h
      · rename_i x xs hreg
        have := upd sub (x :: xs) hreg
        generalize withPolicies A sub (addHints (req.issuer A) (x :: xs)) = r at this ⊢
        obtain ⟨r1, r2⟩ := r
        cases r1 <;> exact this

theorem DefaultLifetimes.after : ∀ {A : Authority} (_ : DefaultLifetimes A) (hist : List (Int × FetchRequest)), DefaultLifetimes (Server.after A hist)
  | _, h, [] => h
  | _, h, (t, req) :: hist => DefaultLifetimes.after (h.fetch t req) hist

/-- What such an authority states is valid for a day. -/
theorem DefaultLifetimes.exp {A : Authority} (h : DefaultLifetimes A) (t : Int) (req : FetchRequest) {d : Dict Val} (hd : (Server.fetch A t req).1 = .ok d) : d.get? "exp" = some (.int (t + 86400)) := by
  have own : ∀ {d}, ownStatement A t = .ok d → d.get? "exp" = some (.int (t + 86400)) := by
    intro d hd
    obtain ⟨-, -, -, -, -, -, -, -, c9, -⟩ := C59_payload _ _ _ _ _ _ _ hd
    exact c9 86400 (.inr ⟨rfl, rfl⟩) (by decide)
  cases hs : req.sub with
  | none =>
    unfold Server.fetch at hd
    simp only [hs] at hd
    exact own hd
  | some sub =>
    by_cases h1 : sub = "" ∨ sub = req.issuer A
    · unfold Server.fetch at hd
      simp only [hs, if_pos h1] at hd
      exact own hd
    · obtain ⟨reg, kw, k1, -, k3, k4⟩ := fetch_foreign hs (fun e => h1 (.inl e)) (fun e => h1 (.inr e)) hd
      obtain ⟨-, -, -, -, -, -, -, -, c9, -⟩ := C59_payload _ _ _ _ _ _ _ k4
      refine c9 86400 (.inr ⟨?_, rfl⟩) (by decide)
      rw [withPolicies_get? k3 "lifetime" (by decide) (by decide) (by decide), (h sub).2]
      unfold addHints
      split
      · exact (h sub).1 reg k1
      · rw [Dict.get?_set_ne _ _ (by decide)]
        exact (h sub).1 reg k1

theorem lastADay {J : Jose} {member : String → Option Member} {host : Val → Option String} {issued : Int} (h : ∀ e m, member e = some m → DefaultLifetimes m.authority) : LastADay J member host issued := by
  intro ep a e s t hs ht
  simp only [world] at hs
  cases hm : (host ep).bind member with
  | none => rw [hm] at hs; cases hs
  | some m =>
    rw [hm] at hs
    obtain ⟨e', -, he'⟩ := Option.bind_eq_some_iff.1 hm
    simp only at hs
    cases hf : (Server.fetch (Server.after m.authority m.requests) issued { iss := some a, sub := some e }).1 with
    | error x => rw [hf] at hs; cases hs
    | ok d =>
      rw [hf] at hs
      simp only [answer, Except.ok.injEq, Option.some.injEq] at hs
      subst hs
      have := ((h e' m he').after m.requests).exp issued _ hf
      simp only [token, decode, this] at ht
      cases ht
      exact Int.le_refl _

namespace Ex91
open Chains.Ex

theorem defaults {e : String} {m : Member} (h : member133 [] e = some m) : DefaultLifetimes m.authority := by
  intro sub
  rcases member133_some h with ⟨rfl, rfl⟩ | ⟨rfl, rfl⟩ | ⟨rfl, rfl⟩
  · refine ⟨fun reg hr => ?_, rfl⟩
    have hr : (if "https://im" = sub then some [("jwks", Val.int 2)] else none) = some reg := by
      simpa [mTa, Dict.get?_cons, Dict.get?_nil] using hr
    split at hr <;> cases hr
    rfl
  · refine ⟨fun reg hr => ?_, rfl⟩
    have hr : (if "https://leaf" = sub then some [("jwks", Val.int 3), ("entity_types", .arr [.str "openid_relying_party"])] else none) = some reg := by
      simpa [mIm, imRegistry, Dict.get?_cons, Dict.get?_nil] using hr
    split at hr <;> cases hr
    rfl
  · exact ⟨fun reg hr => (by simp [mLeaf] at hr), rfl⟩

def R : Resolver := ⟨"https://resolver", .int 9, fun j => .arr [.str j.payload.iss, .str j.payload.sub]⟩

theorem running (now : Int) (stopAt : String) (hn : now < 80000) (hs : stopAt = "" ∨ stopAt = "https://ta") :
    Running (env ((world J (member133 []) host133 0).at now)) J (member133 []) host133 0 now st [] stopAt rank109 where
  kept := wellKept133 [] (.inl rfl)
  world := rfl
  coll := rfl
  order := by simp
  past := by simp
  plain := by simp
  fresh := by simp [env]; omega
  stop := by
    rcases hs with rfl | rfl
    · exact .none rfl
    · intro m hm
      cases hm
      rfl

theorem up : Up (directory J (member133 []) 0) "https://leaf" ["https://im", "https://ta"] := by
  have w := wellKept133 [] (.inl rfl)
  exact .step (hs := ["https://im"]) (w.read (e := "https://leaf") (m := mLeaf) rfl) (by simp)
    (.top (hs := ["https://ta"]) (w.read (e := "https://im") (m := mIm) rfl) (by simp) (w.read (e := "https://ta") (m := mTa []) rfl))

end Ex91

open Chains.Ex in
/-- The resolver's answer about `leaf`. -/
example : ∃ payload, (resolve Ex91.R (env ((world J (member133 []) host133 0).at 100)) st { sub := some "https://leaf", anchor := some "https://ta" }).1 = .ok payload ∧
    payload.get? "trust_chain" = some (.arr [.arr [.str "https://leaf", .str "https://leaf"], .arr [.str "https://im", .str "https://leaf"], .arr [.str "https://ta", .str "https://im"]]) := by
  have k := keys_only L J (member133 []) host133 st.jar 0 100 (env ((world J (member133 []) host133 0).at 100)).P "https://ta" "https://leaf" mLeaf rank109
    (wellKept133 [] (.inl rfl)) (by decide) (Ex91.running 100 "https://ta" (by decide) (.inr rfl)).stop rfl url133 onlyKeys133
  obtain ⟨payload, p, md, h1, h2, -, h4, -⟩ := C91_federation_partial Ex91.R (Ex91.running 100 "https://ta" (by decide) (.inr rfl)) (lastADay fun _ _ h => Ex91.defaults h)
    (entity := "https://leaf") (m := mLeaf) rfl (by decide) (by decide) rfl (fun _ _ => .one .null .null) (fun _ => []) k.1 k.2.1 ⟨_, Ex91.up, rfl⟩
  refine ⟨payload, h1, ?_⟩
  rw [h4, up133 (.inl rfl) h2]
  decide +kernel

end Fed.Server
