import Verif.Chains.Flux
import Verif.Chains.Again
import Verif.TrustMarks.LifeProps
import Verif.TrustMarks.Anchors
/-
More about C142: trust marks of members of any well-run federation, also with delegations, with policies and constraints, with chains stored earlier, and in federations that change.
-/
namespace Fed.TrustMarks
open Fed Verify Chains

/-- What is asked of an entity: for the trust chains of somebody (also by everything that asks for verified metadata), or for its opinion on a trust mark. -/
inductive Asked
  | chains (V : Env) (entity : String)
  | mark (V : Env) (T : TmLib) (O : StatusOracle) (doc : Option Tm) (check : Bool)

def Asked.env : Asked → Env
  | .chains V _ => V
  | .mark V _ _ _ _ => V

/-- The state afterwards. -/
def Asked.run (st : State) : Asked → State
  | .chains V e => (getTrustChains V st e).2
  | .mark V T O doc check => (verifyTrustMark T V O st doc check).2

/-- The state after a history of questions. -/
def asked (st : State) (h : List Asked) : State := h.foldl Asked.run st

section
variable {L : Lib} {P : Collect.Params} {Q : Collect.Period} {keys : String → List Key} {jar0 : KeyJar} {rank : String → Nat} {want : String → String → Policy.Want} {M : String → Policy.Metadata} {iss : String}

/-- Caches and keys as they may have become during the period. -/
structure Seen (Q : Collect.Period) (jar0 : KeyJar) (st : State) : Prop where
  past : Collect.Past Q st.coll
  jar : Knows jar0 st.jar

theorem subscript_past {coll : Collect.State} {t : Int} (f : Flux L P Q keys jar0 rank t) (h : Collect.Past Q coll) (e : String) :
    Collect.subscript P.delta t coll.config e = (.ok (coll.config.get? e), coll.config) := by
  unfold Collect.subscript
  cases hc : coll.config.get? e with
  | none => rfl
  | some c =>
    obtain ⟨h1, h2⟩ := h.config e c hc
    obtain ⟨x, hx, h3, -⟩ := f.fresh e _ h1 h2
    simp only [Collect.CacheVal.dictExp, hx, if_pos h3]

theorem getVerified_seen {V : Env} {st : State} (hf : Flux V.L V.P Q keys jar0 rank V.W.now) (hw : Q.Serves V.W) (h : Seen Q jar0 st) (e stopAt : String) :
    Seen Q jar0 (getVerified V st e stopAt).2 ∧ (getVerified V st e stopAt).2.store = st.store := by
  have hp := (Collect.collect_past hf.sound hw h.past (Collect.view_agree V.W st.coll) V.fuel e stopAt).2
  unfold getVerified
  generalize Collect.collect V.L.toCrypto V.P V.W V.fuel st.coll e stopAt = r at hp ⊢
  obtain ⟨r1, coll⟩ := r
  simp only at hp
  cases r1 with
  | error x => exact ⟨⟨hp, h.jar⟩, rfl⟩
  | ok r1 =>
    obtain ⟨f, ec⟩ := r1
    simp only
    have hk := (verifyChains_again (L := V.L) ((Collect.tree2chains f).map fun c => c.map some ++ [some ec]) st.jar).1
    generalize verifyChains V.L ((Collect.tree2chains f).map fun c => c.map some ++ [some ec]) st.jar = r at hk ⊢
    obtain ⟨r1, jar⟩ := r
    simp only at hk
    have hs : Seen Q jar0 { st with coll := coll, jar := jar } := ⟨hp, h.jar.trans hk⟩
    cases r1 with
    | error x => exact ⟨hs, rfl⟩
    | ok tcs =>
      simp only
      cases applyPolicies V.E V.K tcs <;> exact ⟨hs, rfl⟩

theorem getTrustChains_seen {V : Env} {st : State} (hf : Flux V.L V.P Q keys jar0 rank V.W.now) (hw : Q.Serves V.W) (h : Seen Q jar0 st) (e : String) :
    Seen Q jar0 (getTrustChains V st e).2 ∧ ∀ tcs, (getTrustChains V st e).2.store.get? iss = some tcs → st.store.get? iss = some tcs ∨ (e = iss ∧ tcs ≠ [] ∧ (getVerified V st e).1 = .ok tcs) := by
  obtain ⟨h1, h2⟩ := getVerified_seen hf hw h e ""
  unfold getTrustChains
  cases st.store.get? e with
  | some tcs => exact ⟨h, fun tcs ht => .inl ht⟩
  | none =>
    simp only
    generalize getVerified V st e = r at h1 h2 ⊢
    obtain ⟨r1, st1⟩ := r
    simp only at h1 h2
    cases r1 with
    | error x => exact ⟨h1, fun tcs ht => .inl (by rw [← h2]; exact ht)⟩
    | ok tcs =>
      cases tcs with
      | nil => exact ⟨h1, fun tcs ht => .inl (by rw [← h2]; exact ht)⟩
      | cons tc tcs =>
        refine ⟨⟨h1.past, h1.jar⟩, fun tcs' ht => ?_⟩
        simp only at ht
        rw [Dict.get?_set] at ht
        split at ht
        · next he => cases ht; exact .inr ⟨he, by simp, rfl⟩
        · exact .inl (by rw [← h2]; exact ht)

theorem collectMetadata_seen {V : Env} {st : State} (hf : Flux V.L V.P Q keys jar0 rank V.W.now) (hw : Q.Serves V.W) (h : Seen Q jar0 st) (e : String) :
    Seen Q jar0 (collectMetadata V st e).2 ∧ (collectMetadata V st e).2.store = st.store := by
  have hp := (Collect.collect_past hf.sound hw h.past (Collect.view_agree V.W st.coll) V.fuel e "").2
  unfold collectMetadata
  generalize Collect.collect V.L.toCrypto V.P V.W V.fuel st.coll e "" = r at hp ⊢
  obtain ⟨r1, coll⟩ := r
  simp only at hp
  cases r1 with
  | error x => exact ⟨⟨hp, h.jar⟩, rfl⟩
  | ok r1 =>
    obtain ⟨f, ec⟩ := r1
    simp only
    have hk := (verifyChains_again (L := V.L) ((Collect.tree2chains f).map fun c => c.map some) st.jar).1
    generalize verifyChains V.L ((Collect.tree2chains f).map fun c => c.map some) st.jar = r at hk ⊢
    obtain ⟨r1, jar⟩ := r
    simp only at hk
    cases r1 with
    | error x => exact ⟨⟨hp, h.jar.trans hk⟩, rfl⟩
    | ok tcs =>
      rw [subscript_past hf hp]
      exact ⟨⟨hp, h.jar.trans hk⟩, rfl⟩

theorem getMetadata_seen {V : Env} {st : State} (hf : Flux V.L V.P Q keys jar0 rank V.W.now) (hw : Q.Serves V.W) (h : Seen Q jar0 st) (e : String) :
    Seen Q jar0 (getMetadata V st e).2 ∧ (getMetadata V st e).2.store = st.store := by
  unfold getMetadata
  split
  · rw [subscript_past hf h.past]
    cases st.coll.config.get? e with
    | none => exact ⟨⟨h.past, h.jar⟩, rfl⟩
    | some c =>
      simp only
      split
      · exact collectMetadata_seen (st := { st with coll := { st.coll with config := st.coll.config } }) hf hw ⟨h.past, h.jar⟩ e
      · exact ⟨⟨h.past, h.jar⟩, rfl⟩
  · exact collectMetadata_seen hf hw h e

theorem checkDelegation_seen {T : TmLib} {V : Env} {st : State} (hf : Flux V.L V.P Q keys jar0 rank V.W.now) (hw : Q.Serves V.W) (h : Seen Q jar0 st) (anchor id : String) (p : TmPayload) :
    Seen Q jar0 (checkDelegation T V st anchor id p).2 ∧ (checkDelegation T V st anchor id p).2.store = st.store := by
  unfold checkDelegation verifyDelegation
  cases p.delegation with
  | none => exact ⟨h, rfl⟩
  | some d =>
    have := getMetadata_seen hf hw h anchor
    simp only
    generalize getMetadata V st anchor = r at this ⊢
    obtain ⟨r1, st1⟩ := r
    cases r1 with
    | error x => exact this
    | ok md =>
      simp only
      cases judgeDelegation T md id d <;> exact this

theorem verifyTmSignature_seen {T : TmLib} {V : Env} {st : State} (h : Seen Q jar0 st) (t : Tm) (e : String) (tcs : List TrustChain) :
    Seen Q jar0 (verifyTmSignature T V st t e tcs).2 ∧ (verifyTmSignature T V st t e tcs).2.store = st.store := by
  unfold verifyTmSignature
  simp only
  split
  · cases applyPolicies V.E V.K tcs with
    | error x => exact ⟨h, rfl⟩
    | ok tcs =>
      simp only
      split
      · exact ⟨h, rfl⟩
      · split
        · split
          · exact ⟨h, rfl⟩
          · refine ⟨⟨h.past, h.jar.trans ⟨fun e' k hk => ?_, fun e' hk => ?_⟩⟩, rfl⟩
            · unfold KeyJar.keysOf at hk ⊢
              rw [Dict.get?_set]
              split
              · next he => subst he; exact List.mem_append.2 (.inl hk)
              · exact hk
            · rw [Dict.has_iff, Dict.mem_keys_iff_exists] at hk ⊢
              obtain ⟨v, hv⟩ := hk
              simp only [Dict.get?_set]
              split
              · exact ⟨_, rfl⟩
              · exact ⟨v, hv⟩
        · exact ⟨h, rfl⟩
  · exact ⟨h, rfl⟩

theorem verifyMark_seen {T : TmLib} {V : Env} {st : State} (hf : Flux V.L V.P Q keys jar0 rank V.W.now) (hw : Q.Serves V.W) (h : Seen Q jar0 st) (doc : Option Tm) (anchor : String) :
    Seen Q jar0 (verifyMark T V st doc anchor).2 ∧ (verifyMark T V st doc anchor).2.store = st.store := by
  unfold verifyMark
  cases doc with
  | none => exact ⟨h, rfl⟩
  | some t =>
    simp only
    cases t.payload.verify with
    | error x => exact ⟨h, rfl⟩
    | ok c =>
      obtain ⟨e, sub, id⟩ := c
      simp only
      split
      · exact ⟨h, rfl⟩
      · have h1 := checkDelegation_seen (T := T) hf hw h anchor id t.payload
        generalize checkDelegation T V st anchor id t.payload = r at h1 ⊢
        obtain ⟨r1, st1⟩ := r
        simp only at h1
        cases r1 with
        | error x => exact h1
        | ok u =>
          simp only
          have h2 := getVerified_seen hf hw h1.1 e ""
          rw [h1.2] at h2
          generalize getVerified V st1 e = r at h2 ⊢
          obtain ⟨r1, st2⟩ := r
          simp only at h2
          cases r1 with
          | error x => exact h2
          | ok tcs =>
            simp only
            split
            · exact h2
            · split
              · have := verifyTmSignature_seen (T := T) (V := V) h2.1 t e tcs
                rw [h2.2] at this
                exact this
              · exact h2

theorem verifyTrustMark_seen {T : TmLib} {V : Env} {O : StatusOracle} {st : State} (hf : Flux V.L V.P Q keys jar0 rank V.W.now) (hw : Q.Serves V.W) (h : Seen Q jar0 st) (doc : Option Tm) (check : Bool) :
    Seen Q jar0 (verifyTrustMark T V O st doc check).2 ∧
      ∀ tcs, (verifyTrustMark T V O st doc check).2.store.get? iss = some tcs → st.store.get? iss = some tcs ∨ (tcs ≠ [] ∧ (getVerified V st iss).1 = .ok tcs) := by
  unfold verifyTrustMark
  cases doc with
  | none => exact ⟨h, fun _ h => .inl h⟩
  | some t =>
    simp only
    cases t.payload.iss with
    | none => exact ⟨h, fun _ h => .inl h⟩
    | some e =>
      simp only
      have h1 := getTrustChains_seen (iss := iss) hf hw h e
      generalize getTrustChains V st e = r at h1 ⊢
      obtain ⟨r1, st1⟩ := r
      simp only at h1
      have h3 : ∀ tcs, st1.store.get? iss = some tcs → st.store.get? iss = some tcs ∨ (tcs ≠ [] ∧ (getVerified V st iss).1 = .ok tcs) := by
        intro tcs ht
        rcases h1.2 tcs ht with h | ⟨rfl, h⟩
        · exact .inl h
        · exact .inr h
      cases r1 with
      | error x => exact ⟨h1.1, h3⟩
      | ok tcs =>
        cases tcs with
        | nil => exact ⟨h1.1, h3⟩
        | cons tc tcs =>
          simp only
          have h2 := verifyMark_seen (T := T) hf hw h1.1 (some t) tc.anchor
          generalize verifyMark T V st1 (some t) tc.anchor = r at h2 ⊢
          obtain ⟨r1, st2⟩ := r
          simp only at h2
          have h4 : Seen Q jar0 st2 ∧ ∀ tcs, st2.store.get? iss = some tcs → st.store.get? iss = some tcs ∨ (tcs ≠ [] ∧ (getVerified V st iss).1 = .ok tcs) :=
            ⟨h2.1, fun tcs ht => h3 tcs (by rw [← h2.2]; exact ht)⟩
          cases r1 with
          | error x => exact h4
          | ok r =>
            simp only
            split <;> exact h4

/-- A member that everybody can be expected to resolve: it declares authorities and metadata, and keeps to the constraints and the policies above it, whichever documents of the period are found. -/
structure Resolvable (Q : Collect.Period) (want : String → String → Policy.Want) (M : String → Policy.Metadata) (e : String) : Prop where
  member : Q.S e
  declares : ∀ j, Q.Cfg e j → j.payload.hints ≠ none ∧ j.payload.metadata ≠ none
  itself : ∀ j, Q.Cfg e j → j.payload.sub = e
  within : ∀ D, Mixed Q D → ∀ p, Up D e p → WithinConstraints ((stmtsOf D e p).map (·.payload)) (D.cfg e).payload
  satisfied : ∀ D, Mixed Q D → ∀ p, Up D e p → ∀ s ∈ stmtsOf D e p, SatisfiedBy want M (D.cfg e).payload s.payload

/-- Everything asked of an entity is asked in the same period. -/
structure During (L : Lib) (P : Collect.Params) (Q : Collect.Period) (keys : String → List Key) (jar0 : KeyJar) (rank : String → Nat) (iss : String) (V : Env) : Prop where
  lib : V.L = L
  params : V.P = P
  flux : Flux V.L V.P Q keys jar0 rank V.W.now
  serves : Q.Serves V.W
  answering : Answering Q V.W
  fuel : rank iss < V.fuel

theorem resolved_during {V : Env} {st : State} (hrel : ∀ a e, Q.Rel a e → Q.S e) (hS : ¬ Q.S "") (r : Resolvable Q want M iss) (d : During L P Q keys jar0 rank iss V) (h : Seen Q jar0 st) :
    ∃ D out, Mixed Q D ∧ (getVerified V st iss).1 = .ok out ∧ out ≠ [] ∧ (∀ p, Up D iss p → ∃ tc ∈ out, Resolved D want iss p tc) ∧ ∀ tc ∈ out, ∃ p, Up D iss p ∧ Resolved D want iss p tc :=
  Flux.resolved V Q keys rank st "" iss want M (d.flux.grow fun e => ⟨fun k hk => h.jar.keys e k hk, h.jar.has e⟩) d.serves d.answering hrel h.past
    (fun e j hs he _ _ hh => hS (hh ▸ he)) r.member d.fuel r.declares r.within r.satisfied

/-- Stored chains of the issuer are such as were found during the period. -/
def StoredWell (Q : Collect.Period) (want : String → String → Policy.Want) (iss : String) (st : State) : Prop :=
  ∀ tcs, st.store.get? iss = some tcs → tcs ≠ [] ∧ ∀ tc ∈ tcs, ∃ D p, Mixed Q D ∧ Up D iss p ∧ Resolved D want iss p tc

theorem asked_seen (hrel : ∀ a e, Q.Rel a e → Q.S e) (hS : ¬ Q.S "") (r : Resolvable Q want M iss) : ∀ (h : List Asked) (st : State), (∀ x ∈ h, During L P Q keys jar0 rank iss x.env) →
    Seen Q jar0 st → StoredWell Q want iss st → Seen Q jar0 (asked st h) ∧ StoredWell Q want iss (asked st h)
  | [], st, _, h1, h2 => ⟨h1, h2⟩
  | x :: h, st, hd, h1, h2 => by
    have d := hd x (by simp)
    have key : Seen Q jar0 (x.run st) ∧ StoredWell Q want iss (x.run st) := by
      have good : ∀ V, During L P Q keys jar0 rank iss V → ∀ tcs, (getVerified V st iss).1 = .ok tcs → ∀ tc ∈ tcs, ∃ D p, Mixed Q D ∧ Up D iss p ∧ Resolved D want iss p tc := by
        intro V d tcs ht tc htc
        obtain ⟨D, out, k1, k2, -, -, k3⟩ := resolved_during hrel hS r d h1
        rw [k2] at ht
        cases ht
        obtain ⟨p, k4, k5⟩ := k3 tc htc
        exact ⟨D, p, k1, k4, k5⟩
      cases x with
      | chains V e =>
        obtain ⟨k1, k2⟩ := getTrustChains_seen (iss := iss) d.flux d.serves h1 e
        refine ⟨k1, fun tcs ht => ?_⟩
        rcases k2 tcs ht with k | ⟨rfl, k3, k4⟩
        · exact h2 tcs k
        · exact ⟨k3, good V d tcs k4⟩
      | mark V T O doc check =>
        obtain ⟨k1, k2⟩ := verifyTrustMark_seen (T := T) (O := O) (iss := iss) d.flux d.serves h1 doc check
        refine ⟨k1, fun tcs ht => ?_⟩
        rcases k2 tcs ht with k | ⟨k3, k4⟩
        · exact h2 tcs k
        · exact ⟨k3, good V d tcs k4⟩
    exact asked_seen hrel hS r h (x.run st) (fun y hy => hd y (by simp [hy])) key.1 key.2

/-- The metadata of a trust anchor is that of one of its configurations. -/
theorem getMetadata_anchor {V : Env} {st : State} (hf : Flux V.L V.P Q keys jar0 rank V.W.now) (hw : Q.Serves V.W) (ha : Answering Q V.W) (hfuel : 0 < V.fuel) (h : Seen Q jar0 st) {a : String} (hSa : Q.S a)
    (hroot : ∀ j, Q.Cfg a j → j.payload.hints = none ∧ j.payload.metadata ≠ none) : ∃ j md, Q.Cfg a j ∧ j.payload.metadata = some md ∧ (getMetadata V st a).1 = .ok md := by
  unfold getMetadata
  cases hc : st.coll.config.get? a with
  | some c =>
    have hhas : st.coll.config.has a = true := by rw [Dict.has_iff, Dict.mem_keys_iff_exists]; exact ⟨c, hc⟩
    rw [if_pos hhas, subscript_past hf h.past, hc]
    obtain ⟨-, h2⟩ := h.past.config a c hc
    obtain ⟨x, hx, h3, h4⟩ := hf.fresh a _ hSa h2
    have hex : isExpired V.W.now c.jws.payload.exp = false := by rw [hx]; simp only [isExpired, decide_eq_false_iff_not]; omega
    simp only [hex]
    cases hm : c.jws.payload.metadata with
    | none => exact absurd hm (hroot _ h2).2
    | some md => exact ⟨c.jws, md, h2, hm, by simp [ecMetadata, hm]⟩
  | none =>
    have hhas : ¬ st.coll.config.has a = true := by rw [Dict.has_iff, Dict.mem_keys_iff_exists]; rintro ⟨v, hv⟩; rw [hc] at hv; cases hv
    rw [if_neg hhas]
    obtain ⟨j, hj⟩ := ha.config a hSa
    obtain ⟨-, hC⟩ := hw.config a j hj
    have hcoll : Collect.collect V.L.toCrypto V.P V.W V.fuel st.coll a "" = (.ok (.nil, j), { st.coll with config := st.coll.config.set a ⟨j⟩ }) := by
      unfold Collect.collect
      simp only [hc, hj, hf.sound.verify a j hSa hC]
      obtain ⟨n, hn⟩ : ∃ n, V.fuel = n + 1 := ⟨V.fuel - 1, by omega⟩
      rw [hn]
      unfold Collect.collectTree
      simp only [(hroot j hC).1]
    unfold collectMetadata
    rw [hcoll]
    have hp : Collect.Past Q { st.coll with config := st.coll.config.set a ⟨j⟩ } := h.past.setConfig hSa hC
    simp only [Collect.tree2chains, List.map_nil, verifyChains]
    rw [subscript_past (coll := { st.coll with config := st.coll.config.set a ⟨j⟩ }) hf hp]
    simp only [Dict.get?_set_self]
    cases hm : j.payload.metadata with
    | none => exact absurd hm (hroot _ hC).2
    | some md => exact ⟨j, md, hC, hm, by simp [ecMetadata, hm]⟩

/-- The trust anchor's configuration names the owner of the mark, and the delegation is signed with a key the anchor states for it. -/
structure Delegated (T : TmLib) (j : Jws) (id : String) (d : Delegation) : Prop where
  named : ∃ fe issuers owners info v ks k, j.payload.md.get? "federation_entity" = some fe ∧ fe.get? "trust_mark_issuers" = some (.obj issuers) ∧ id ∈ Dict.keys issuers ∧
    fe.get? "trust_mark_owners" = some (.obj owners) ∧ Dict.get? owners id = some (.obj info) ∧ Dict.get? info "jwks" = some v ∧ T.jwks v = .ok ks ∧ Dict.get? info "sub" = some (.str d.iss) ∧
    k ∈ ks ∧ T.usableD d k = true ∧ T.verifiesD d k = true

theorem Delegated.judged {T : TmLib} {j : Jws} {id : String} {d : Delegation} (h : Delegated T j id d) {md : Dict Policy.Metadata} (hm : j.payload.metadata = some md) :
    judgeDelegation T md id (some d) = .ok true := by
  obtain ⟨fe, issuers, owners, info, v, ks, k, h1, h2, h3, h4, h5, h6, h7, h8, h9, h10, h11⟩ := h.named
  have h1 : Dict.get? md "federation_entity" = some fe := by simpa [Payload.md, hm] using h1
  have hk : k ∈ ks.filter (T.usableD d) := List.mem_filter.2 ⟨h9, h10⟩
  have hne : (ks.filter (T.usableD d)).isEmpty = false := by
    cases hl : ks.filter (T.usableD d) with
    | nil => rw [hl] at hk; cases hk
    | cons _ _ => rfl
  have inObj : ∀ (kvs : List (String × Val)), id ∈ Dict.keys kvs → pyIn (.str id) (.obj kvs) = .ok true := by
    intro kvs hi
    obtain ⟨q, hq, rfl⟩ := List.mem_map.1 hi
    have : (kvs.any fun p => decide (Val.str p.1 = Val.str q.1)) = true := List.any_eq_true.2 ⟨q, hq, by simp⟩
    simp only [pyIn, Val.hashable, if_true, this]
  have i1 := inObj _ h3
  have i2 := inObj owners ((Dict.mem_keys_iff_exists _ _).2 ⟨_, h5⟩)
  have g1 : Dict.get md "federation_entity" = .ok fe := by simp [Dict.get, h1]
  have g2 : Dict.get fe "trust_mark_issuers" = .ok (.obj issuers) := by simp [Dict.get, h2]
  have g3 : Dict.get fe "trust_mark_owners" = .ok (.obj owners) := by simp [Dict.get, h4]
  have g4 : item (.obj owners) id = .ok (.obj info) := by simp [item, Dict.get, h5]
  have g5 : item (.obj info) "jwks" = .ok v := by simp [item, Dict.get, h6]
  have g6 : item (.obj info) "sub" = .ok (.str d.iss) := by simp [item, Dict.get, h8]
  have hany : (ks.filter (T.usableD d)).any (T.verifiesD d) = true := List.any_eq_true.2 ⟨k, hk, h11⟩
  unfold judgeDelegation
  simp only [g1, g2, g3, g4, g5, g6, h7, i1, i2, ok_bind, Bool.not_true, Bool.false_eq_true, if_false, if_true, hne, hany]
  rfl

/-- The verdict on a mark, once nothing is wrong with its delegation. -/
theorem good_mark (T : TmLib) (V : Env) (st st1 : State) (t : Tm) (anchor iss sub id : String) (iat : Int)
    (h1 : t.payload.iss = some iss) (h2 : t.payload.sub = some sub) (h3 : t.payload.id = some id) (h4 : t.payload.iat = some iat)
    (h5 : ∀ e, t.payload.exp = some e → V.W.now ≤ e) (h6 : checkDelegation T V st anchor id t.payload = (.ok (), st1)) (tcs : List TrustChain)
    (h7 : (getVerified V st1 iss).1 = .ok tcs) (tc : TrustChain) (h8 : tc ∈ tcs) (h9 : tc.anchor = anchor) (k : Key)
    (h10 : k ∈ (getVerified V st1 iss).2.jar.keysOf iss) (h11 : T.usable t k = true) (h12 : T.verifies t k = true) :
    (verifyMark T V st (some t) anchor).1 = .ok (some t.payload) := by
  unfold verifyMark
  have hv : t.payload.verify = .ok (iss, sub, id) := by simp [TmPayload.verify, h1, h2, h3, h4]
  have hx : isExpired V.W.now t.payload.exp = false := by
    cases he : t.payload.exp with
    | none => rfl
    | some e => simpa [isExpired] using h5 e he
  simp only [hv, hx, h6]
  generalize getVerified V st1 iss = r at h7 h10 ⊢
  obtain ⟨r1, st2⟩ := r
  simp only at h7 h10
  subst h7
  have hne : tcs.isEmpty = false := by cases tcs with | nil => cases h8 | cons _ _ => rfl
  have hm : anchor ∈ tcs.map (·.anchor) := List.mem_map.2 ⟨tc, h8, h9⟩
  have hkm : k ∈ tmKeys T st2.jar t iss := List.mem_filter.2 ⟨h10, h11⟩
  have hke : (tmKeys T st2.jar t iss).isEmpty = false := by
    cases hl : tmKeys T st2.jar t iss with
    | nil => rw [hl] at hkm; cases hkm
    | cons _ _ => rfl
  simp only [hne, Bool.false_eq_true, if_false, if_pos hm, verifyTmSignature, hke, checkSignature, if_pos (List.any_eq_true.2 ⟨k, hkm, h12⟩)]

theorem up_anchor {D : Directory} (hm : Mixed Q D) (hh : ∀ e j hs a, Q.S e → Q.Cfg e j → j.payload.hints = some hs → a ∈ hs → Q.S a) {e : String} {p : List String} (h : Up D e p) (he : Q.S e) {a : String}
    (ha : p.getLast? = some a) : Q.S a ∧ (D.cfg a).payload.hints = none := by
  induction h with
  | top h1 h2 h3 =>
    simp only [List.getLast?_singleton, Option.some.injEq] at ha
    subst ha
    exact ⟨hh _ _ _ _ he (hm.cfg _ he) h1 h2, h3⟩
  | @step e' hs b p' h1 h2 h3 ih =>
    refine ih (hh _ _ _ _ he (hm.cfg _ he) h1 h2) ?_
    cases p' with
    | nil => cases h3
    | cons x p' => rw [List.getLast?_cons_cons] at ha; exact ha

/-- C142 in any federation that keeps to the rules of `Flux`, so with policies and constraints, while it changes, and whatever was asked before: a mark of a member that is signed with one of its keys and
has not expired is accepted; if the issuer is asked, then exactly if the answer is that the mark is active. A delegation does no harm if it is signed by the owner that the anchors name. Chains may have been
stored at any time during the period; so the anchors above the issuer must not change. -/
theorem C142_any_federation_partial (T : TmLib) (V : Env) (Q : Collect.Period) (keys : String → List Key) (jar0 : KeyJar) (rank : String → Nat) (h : List Asked) (iss sub id : String) (iat : Int) (t : Tm) (k : Key)
    (want : String → String → Policy.Want) (M : String → Policy.Metadata)
    (hV : During V.L V.P Q keys jar0 rank iss V) (hd : ∀ x ∈ h, During V.L V.P Q keys jar0 rank iss x.env) (hrel : ∀ a e, Q.Rel a e → Q.S e) (hS : ¬ Q.S "") (r : Resolvable Q want M iss)
    (hanch : ∀ D D' p, Mixed Q D → Mixed Q D' → Up D iss p → ∃ p', Up D' iss p' ∧ p'.getLast? = p.getLast?)
    (t1 : t.payload.iss = some iss) (t2 : t.payload.sub = some sub) (t3 : t.payload.id = some id) (t4 : t.payload.iat = some iat) (t5 : ∀ e, t.payload.exp = some e → V.W.now ≤ e)
    (t6 : ∀ d, t.payload.delegation = some d → ∃ dl, d = some dl ∧ ∀ a j, Q.S a → Q.Cfg a j → j.payload.hints = none → (∀ j', Q.Cfg a j' → j'.payload.hints = none) ∧ Delegated T j id dl)
    (hk : k ∈ keys iss) (t7 : T.usable t k = true) (t8 : T.verifies t k = true) :
    (∀ O, (verifyTrustMark T V O (asked { jar := jar0 } h) (some t) false).1 = .ok (some t.payload)) ∧
    ∀ (O : StatusOracle) (b : Bool),
      (∀ j, Q.Cfg iss j → ∃ fe ep resp, j.payload.md.get? "federation_entity" = some fe ∧ fe.get? "federation_trust_mark_status_endpoint" = some ep ∧ O ep sub id = .ok resp ∧ resp.get? "active" = some (.bool b)) →
      (∀ a e s, Q.Rel a e → Q.About a e s → "federation_trust_mark_status_endpoint" ∉ ((toP s.payload).rule "federation_entity").policy.keys) →
      (verifyTrustMark T V O (asked { jar := jar0 } h) (some t) true).1 = .ok (if b then some t.payload else none) := by
  obtain ⟨hseen, hstored⟩ := asked_seen hrel hS r h { jar := jar0 } hd ⟨.empty Q, .refl _⟩ (fun tcs ht => by cases ht)
  generalize asked { jar := jar0 } h = st at hseen hstored
  have hints : ∀ e j hs a, Q.S e → Q.Cfg e j → j.payload.hints = some hs → a ∈ hs → Q.S a ∧ Q.Rel a e := fun e j hs a h1 h2 h3 h4 => ⟨((hV.flux.hints e j hs h1 h2 h3).2 a h4).1, ((hV.flux.hints e j hs h1 h2 h3).2 a h4).2.1⟩
  -- the chain of the issuer that is gone by
  obtain ⟨tc, rest, st1, D, p, hgt, hseen1, hm, hup, hres⟩ : ∃ tc rest st1 D p, getTrustChains V st iss = (.ok (tc :: rest), st1) ∧ Seen Q jar0 st1 ∧ Mixed Q D ∧ Up D iss p ∧ Resolved D want iss p tc := by
    have hs1 := (getTrustChains_seen (iss := iss) hV.flux hV.serves hseen iss).1
    unfold getTrustChains at hs1 ⊢
    cases hst : st.store.get? iss with
    | some tcs =>
      simp only [hst] at hs1 ⊢
      obtain ⟨k1, k2⟩ := hstored tcs hst
      cases tcs with
      | nil => exact absurd rfl k1
      | cons tc rest =>
        obtain ⟨D, p, k3, k4, k5⟩ := k2 tc (by simp)
        exact ⟨tc, rest, st, D, p, rfl, hs1, k3, k4, k5⟩
    | none =>
      simp only [hst] at hs1 ⊢
      obtain ⟨D, out, k1, k2, k3, -, k4⟩ := resolved_during hrel hS r hV hseen
      generalize getVerified V st iss = q at hs1 k2 ⊢
      obtain ⟨q1, st1⟩ := q
      simp only at k2
      subst k2
      cases out with
      | nil => exact absurd rfl k3
      | cons tc rest =>
        obtain ⟨p, k5, k6⟩ := k4 tc (by simp)
        exact ⟨tc, rest, _, D, p, rfl, hs1, k1, k5, k6⟩
  -- its delegation
  obtain ⟨hSa, hroot⟩ := up_anchor hm (fun e j hs a h1 h2 h3 h4 => (hints e j hs a h1 h2 h3 h4).1) hup r.member hres.anchor
  obtain ⟨st2, hdel⟩ : ∃ st2, checkDelegation T V st1 tc.anchor id t.payload = (.ok (), st2) := by
    unfold checkDelegation
    cases hdl : t.payload.delegation with
    | none => exact ⟨st1, rfl⟩
    | some d =>
      obtain ⟨dl, rfl, hdl2⟩ := t6 d hdl
      have all : ∀ j, Q.Cfg tc.anchor j → j.payload.hints = none := (hdl2 _ _ hSa (hm.cfg _ hSa) hroot).1
      obtain ⟨j, md, j1, j2, j3⟩ := getMetadata_anchor hV.flux hV.serves hV.answering (by have := hV.fuel; omega) hseen1 hSa fun j hj => ⟨all j hj, by
        obtain ⟨fe, _, _, _, _, _, _, hfe, -⟩ := (hdl2 _ _ hSa hj (all j hj)).2.named
        intro hn
        simp [Payload.md, hn] at hfe⟩
      have hj := (hdl2 _ _ hSa j1 (all j j1)).2.judged j2
      simp only [verifyDelegation]
      generalize getMetadata V st1 tc.anchor = q at j3 ⊢
      obtain ⟨q1, st2⟩ := q
      simp only at j3
      subst j3
      simp only [hj]
      exact ⟨st2, rfl⟩
  have hseen2 : Seen Q jar0 st2 := by
    have := (checkDelegation_seen (T := T) hV.flux hV.serves hseen1 tc.anchor id t.payload).1
    rw [hdel] at this
    exact this
  -- its signature
  obtain ⟨D2, out, k1, k2, -, k3, -⟩ := resolved_during hrel hS r hV hseen2
  obtain ⟨p2, k4, k5⟩ := hanch D D2 p hm k1 hup
  obtain ⟨tc2, k6, k7⟩ := k3 p2 k4
  have hanc : tc2.anchor = tc.anchor := by
    have := k7.anchor
    rw [k5, hres.anchor] at this
    exact (Option.some.inj this).symm
  have hkey : k ∈ (getVerified V st2 iss).2.jar.keysOf iss := by
    obtain ⟨s1, ks, s2, s3⟩ := hV.flux.self iss _ r.member (k1.cfg _ r.member)
    have := getVerified_declared k2 k6 (j := D2.cfg iss) (by rw [k7.chain]; simp) s2 (s3 k hk)
    rwa [r.itself _ (k1.cfg _ r.member)] at this
  have hmark := good_mark T V st1 st2 t tc.anchor iss sub id iat t1 t2 t3 t4 t5 hdel out k2 tc2 k6 hanc k hkey t7 t8
  have hshape : ∀ O check, (verifyTrustMark T V O st (some t) check).1 = if check then askIssuer O tc (some t.payload) else .ok (some t.payload) := by
    intro O check
    unfold verifyTrustMark
    simp only [t1, hgt]
    generalize verifyMark T V st1 (some t) tc.anchor = q at hmark ⊢
    obtain ⟨q1, q2⟩ := q
    simp only at hmark
    subst hmark
    cases check <;> rfl
  refine ⟨fun O => by rw [hshape]; rfl, fun O b hO hpol => ?_⟩
  obtain ⟨fe, ep, resp, f1, f2, f3, f4⟩ := hO _ (hm.cfg _ r.member)
  obtain ⟨m, m1, -, m3⟩ := hres.metadata _ _ f1
  have hep := m3 _ _ f2 fun q hq => by
    obtain ⟨s, hs, rfl⟩ := List.mem_map.1 hq
    obtain ⟨a, e, s1, s2⟩ := hm.mem_stmtsOf hints hup r.member s hs
    exact hpol a e s s1 s2
  rw [hshape, if_pos rfl]
  simp only [askIssuer, t2, t3, Dict.get, m1, item, hep, ok_bind, f3]
  cases b <;> simp [saysActive, f4] <;> rfl

end

/-! ### An example

`im` of the example federation of C210 has signed a mark with its old key, with a delegation of the owner that `ta` names. In the meantime it signs with its new key, and everybody has the old chains. -/
namespace Ex
def mark210 : Tm := ⟨{ iss := some "https://im", sub := some "https://rp", id := some "tm", iat := some 1, exp := some 1000, delegation := some (some ⟨"https://owner", 7⟩) }, 2⟩
def env210 (k : Key) (t : Int) : Env := Chains.Ex.env ((Chains.Ex.F210 [2, 20] k).at t)
def past210 : List Asked := [.chains (env210 2 0) "https://im", .chains (env210 2 3) "https://leaf", .mark (env210 20 5) T (fun _ _ _ => .error .keyError) (some mark210) true]

theorem during210 (k : Key) (hk : k ∈ [2, 20]) (t : Int) (ht : t ≤ 5000) :
    During Chains.Ex.L { anchors := ["https://ta"] } Chains.Ex.Q210 Chains.Ex.keys210 [("https://ta", [1])] Chains.Ex.rank210 "https://im" (env210 k t) := by
  refine ⟨rfl, rfl, Chains.Ex.flux210 t ht, Chains.Ex.serves210 k hk t, ⟨fun e he => ⟨Chains.Ex.cfg210 [2, 20] k e, ?_⟩, fun _ _ _ _ _ _ _ _ _ => ⟨_, rfl⟩⟩, (by decide : 1 < 10)⟩
  change e ∈ _ at he
  simp only [env210, Chains.Ex.env, Collect.Federation.at, Chains.Ex.F210, if_pos he]

theorem up210 {D : Directory} (hm : Mixed Chains.Ex.Q210 D) {p : List String} (h : Up D "https://im" p) : p = ["https://ta"] := by
  have hS : ∀ e, e ∈ ["https://leaf", "https://leaf2", "https://im", "https://ta"] → Chains.Ex.Q210.S e := fun e he => he
  have hi : ∀ e, Chains.Ex.Q210.S e → (D.cfg e).payload.hints = Chains.Ex.hints210 e := by
    intro e he
    obtain ⟨k, -, hk⟩ := hm.cfg e he
    rw [hk, Chains.Ex.cfg210_hints]
  have h1 : (D.cfg "https://im").payload.hints = some ["https://ta"] := hi _ (hS _ (by simp))
  have h2 : (D.cfg "https://ta").payload.hints = none := hi _ (hS _ (by simp))
  cases h with
  | top hh ha _ =>
    rw [h1] at hh
    cases hh
    simp only [List.mem_singleton] at ha
    rw [ha]
  | step hh ha hp =>
    rw [h1] at hh
    cases hh
    simp only [List.mem_singleton] at ha
    subst ha
    cases hp with
    | top hh _ _ => rw [h2] at hh; cases hh
    | step hh _ _ => rw [h2] at hh; cases hh
end Ex

example : (∀ O, (verifyTrustMark Ex.T (Ex.env210 20 100) O (asked { jar := [("https://ta", [1])] } Ex.past210) (some Ex.mark210) false).1 = .ok (some Ex.mark210.payload)) ∧
    (verifyTrustMark Ex.T (Ex.env210 20 100) (fun ep sub id => .ok [("active", .bool (decide (ep = .str "status" ∧ sub = "https://rp" ∧ id = "tm")))]) (asked { jar := [("https://ta", [1])] } Ex.past210)
      (some Ex.mark210) true).1 = .ok (some Ex.mark210.payload) := by
  have hu : ∀ s : String, (Constraints.labelsOf s).isSome = true → Constraints.IsUrl s := fun s hs => Constraints.isUrl_iff.2 (Option.isSome_iff_exists.1 hs)
  have him : Chains.Ex.Q210.S "https://im" := by show _ ∈ _; decide
  have alone : ∀ a e s, Chains.Ex.Q210.Rel a e → Chains.Ex.Q210.About a e s → KeysAlone s.payload := by
    rintro a e s ⟨he, -⟩ ⟨k, -, rfl⟩
    refine ⟨rfl, rfl, rfl, ?_⟩
    show Constraints.IsUrl e
    unfold Chains.Ex.S210 at he
    simp only [List.mem_cons, List.not_mem_nil, or_false] at he
    rcases he with rfl | rfl | rfl | rfl <;> exact hu _ (by decide +kernel)
  have stmts : ∀ D, Mixed Chains.Ex.Q210 D → ∀ p, Up D "https://im" p → ∀ s ∈ stmtsOf D "https://im" p, KeysAlone s.payload := by
    intro D hm p hp s hs
    obtain ⟨a, b, k1, k2⟩ := hm.mem_stmtsOf (fun e j hs a h1 h2 h3 h4 => ⟨(((Chains.Ex.flux210 0 (by decide)).hints e j hs h1 h2 h3).2 a h4).1, (((Chains.Ex.flux210 0 (by decide)).hints e j hs h1 h2 h3).2 a h4).2.1⟩) hp him s hs
    exact alone a b s k1 k2
  have main := C142_any_federation_partial Ex.T (Ex.env210 20 100) Chains.Ex.Q210 Chains.Ex.keys210 [("https://ta", [1])] Chains.Ex.rank210 Ex.past210 "https://im" "https://rp" "tm" 1 Ex.mark210 2
    (fun _ _ => .one .null .null) (fun _ => []) (Ex.during210 20 (by simp) 100 (by decide))
    (by
      intro x hx
      simp only [Ex.past210, List.mem_cons, List.not_mem_nil, or_false] at hx
      rcases hx with rfl | rfl | rfl
      · exact Ex.during210 2 (by simp) 0 (by decide)
      · exact Ex.during210 2 (by simp) 3 (by decide)
      · exact Ex.during210 20 (by simp) 5 (by decide))
    (fun _ _ h => h.1) (by show ¬ _ ∈ _; decide)
    ⟨him, by rintro j ⟨k, -, rfl⟩; exact ⟨by simp [Chains.Ex.cfg210_hints, Chains.Ex.hints210], by simp [Chains.Ex.cfg210]⟩, by rintro j ⟨k, -, rfl⟩; rfl,
      fun D hm p hp => within_of_keysAlone (fun q hq => by
        obtain ⟨s, hs, rfl⟩ := List.mem_map.1 hq
        exact stmts D hm p hp s hs)
        (by obtain ⟨k, -, hk⟩ := hm.cfg _ him; rw [hk]; rfl) (by obtain ⟨k, -, hk⟩ := hm.cfg _ him; rw [hk]; exact hu "https://im" (by decide +kernel)),
      fun D hm p hp s hs => satisfied_of_keysAlone (stmts D hm p hp s hs)⟩
    (fun D D' p hm hm' hp => ⟨["https://ta"], .top (hs := ["https://ta"]) (by obtain ⟨k, -, hk⟩ := hm'.cfg _ him; rw [hk]; rfl) (by simp) (by
      obtain ⟨k, -, hk⟩ := hm'.cfg "https://ta" (by show _ ∈ _; decide); rw [hk]; rfl), by rw [Ex.up210 hm hp]⟩)
    rfl rfl rfl rfl (by intro e he; cases he; decide)
    (by
      intro d hdl
      cases hdl
      refine ⟨_, rfl, fun a j ha hj hn => ⟨?_, ?_⟩⟩
      · obtain ⟨k, -, rfl⟩ := hj
        rw [Chains.Ex.cfg210_hints] at hn
        rintro j' ⟨k', -, rfl⟩
        rw [Chains.Ex.cfg210_hints, hn]
      · obtain ⟨k, -, rfl⟩ := hj
        rw [Chains.Ex.cfg210_hints] at hn
        have : a = "https://ta" := by
          change a ∈ _ at ha
          simp only [List.mem_cons, List.not_mem_nil, or_false] at ha
          rcases ha with rfl | rfl | rfl | rfl
          · exact absurd hn (by decide)
          · exact absurd hn (by decide)
          · exact absurd hn (by decide)
          · rfl
        subst this
        exact ⟨_, [("tm", .arr [])], [("tm", .obj [("sub", .str "https://owner"), ("jwks", .int 7)])], [("sub", .str "https://owner"), ("jwks", .int 7)], .int 7, [7], 7,
          Chains.Ex.cfg210_endpoint _ k (.inr rfl), by decide, by decide, by decide, by decide, by decide, rfl, by decide, by simp, rfl, rfl⟩)
    (by decide) rfl rfl
  refine ⟨main.1, main.2 _ true ?_ ?_⟩
  · rintro j ⟨k, -, rfl⟩
    exact ⟨_, .str "status", _, Chains.Ex.cfg210_endpoint _ k (.inl rfl), by decide, rfl, by decide⟩
  · intro a e s hr hs
    simp [toP, Policy.PStatement.rule, (alone a e s hr hs).policy, Dict.keys]

end Fed.TrustMarks
