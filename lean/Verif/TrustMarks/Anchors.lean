import Verif.Chains.Withdrawn
import Verif.TrustMarks.VerifyProps
/-
Property C209: trust anchors as members of the federation themselves.
-/
namespace Fed.Collect
open Fed

/-- A trust anchor that names nobody above it, or only itself, has no statements above it. -/
theorem collectTree_anchor {C : Crypto} {P : Params} {W : World} {e stopAt : String} {n : Nat} {st : State} {p : Payload} {f : Forest Jws} (he : e ∈ P.anchors)
    (hp : ∀ hs, p.hints = some hs → ∀ a ∈ hs, a = e) (h : (collectTree C P W stopAt n st e (some p)).1 = .ok f) : f = .nil ∨ f = .missing e .nil := by
  cases n with
  | zero => cases h
  | succ n =>
    unfold collectTree at h
    split at h
    · cases h; exact .inl rfl
    · rename_i hs hh
      split at h
      · cases h; exact .inl rfl
      · have hb := hp hs hh
        have : ∀ (hs : List String) (acc : Forest Jws) (st : State), (acc = .nil ∨ acc = .missing e .nil) → (∀ a ∈ hs, a = e) →
            (overHints (collectBranch C P W (collectTree C P W stopAt n) e) hs acc st).1 = .ok f → f = .nil ∨ f = .missing e .nil := by
          intro hs
          induction hs with
          | nil => intro acc st ha _ h; cases h; exact ha
          | cons a hs ih =>
            intro acc st ha hb h
            have := hb a (by simp)
            subst this
            unfold overHints at h
            have hbr : collectBranch C P W (collectTree C P W stopAt n) a st a = (.ok none, st) := by unfold collectBranch; rw [if_pos ⟨rfl, he⟩]
            rw [hbr] at h
            refine ih (acc.set a none) st ?_ (fun x hx => hb x (by simp [hx])) h
            rcases ha with rfl | rfl
            · exact .inr rfl
            · right; simp [Forest.set]
        exact this hs .nil st (.inl rfl) hb h

theorem collect_anchor {C : Crypto} {P : Params} {W : World} {e stopAt : String} {n : Nat} {st : State} {f : Forest Jws} {ec : Jws} (he : e ∈ P.anchors)
    (hp : ∀ j, ConfigFrom C W st e j → ∀ hs, j.payload.hints = some hs → ∀ a ∈ hs, a = e) (h : (collect C P W n st e stopAt).1 = .ok (f, ec)) : f = .nil ∨ f = .missing e .nil := by
  have hc := (C31_tree_faithful_partial _ _ _ _ _ _ _ _ _ h).1
  have key : ∀ (st' : State) (p : Payload) (j : Jws) (r : Except PyErr (Forest Jws × Jws) × State), p = j.payload →
      (match collectTree C P W stopAt n st' e (some p) with
        | (.error e, st) => ((.error e : Except PyErr (Forest Jws × Jws)), st)
        | (.ok f, st) => (.ok (f, j), st)) = r → r.1 = .ok (f, ec) → f = .nil ∨ f = .missing e .nil := by
    intro st' p j r hpj hr hf
    subst hpj
    generalize ht : collectTree C P W stopAt n st' e (some j.payload) = t at hr
    obtain ⟨t1, st2⟩ := t
    cases t1 with
    | error x => subst hr; cases hf
    | ok f' =>
      subst hr
      cases hf
      exact collectTree_anchor he (hp ec hc) (by rw [ht])
  unfold collect at h
  simp only at h
  split at h
  · cases h
  · exact key _ _ _ _ rfl rfl h
  · split at h
    · cases h
    · cases h
    · split at h
      · cases h
      · rename_i p hv
        exact key _ _ _ _ (selfVerify_payload hv) rfl h

end Fed.Collect

namespace Fed.Chains
open Fed Verify

/-- All that the entity has published: it names no authority but, perhaps, itself, and has no metadata for an entity type without a name. -/
def NamesNobody (h : List (Env × String)) (V : Env) (e : String) : Prop :=
  ∀ W, (W = V.W ∨ ∃ p ∈ h, W = p.1.W) → ∀ j, W.config e = .ok (some j) →
    (∀ hs, j.payload.hints = some hs → ∀ a ∈ hs, a = e) ∧ ∀ md, j.payload.metadata = some md → md.get? "" = none

theorem getVerified_anchor (V : Env) (st : State) (e stopAt : String) (he : e ∈ V.P.anchors)
    (hp : ∀ j, Collect.ConfigFrom V.L.toCrypto V.W st.coll e j → (∀ hs, j.payload.hints = some hs → ∀ a ∈ hs, a = e) ∧ ∀ md, j.payload.metadata = some md → md.get? "" = none)
    (out : List TrustChain) (ho : (getVerified V st e stopAt).1 = .ok out) : out = [] := by
  rw [List.eq_nil_iff_forall_not_mem]
  intro tc ht
  obtain ⟨f, ec, tcs, h1, h2, h3, -⟩ := getVerified_ok ho
  obtain ⟨tc0, hm, hap⟩ := (applyPolicies_mem h3).1 tc ht
  obtain ⟨pre, c, post, hd, hv⟩ := (verifyChains_mem h2 tc0).1 hm
  obtain ⟨-, d2, -, -⟩ := C42_describes_chain _ _ _ _ hv
  have hcm : c ∈ docs f ec := by rw [hd]; simp
  obtain ⟨c0, hc0, rfl⟩ := List.mem_map.1 hcm
  have hf := Collect.collect_anchor he (fun j hj => (hp j hj).1) h1
  have hc := (Collect.C31_tree_faithful_partial _ _ _ _ _ _ _ _ _ h1).1
  rcases hf with rfl | rfl
  · cases hc0
  · simp only [Collect.tree2chains, List.mem_singleton] at hc0
    subst hc0
    have hst : statements (List.map some ([] : List Jws) ++ [some ec]) = [ec] := rfl
    rw [hst] at d2
    obtain ⟨leaf, md, h4, h5, h6⟩ := applyToChain_ok.1 hap
    rw [d2] at h4 h6
    simp only [List.map_cons, List.map_nil, List.getLast?_singleton, Option.some.injEq] at h4
    subst h4
    rcases h6 with ⟨h6, -⟩ | ⟨-, m, h6, -⟩
    · simp at h6
    · rw [(hp ec hc).2 md h5] at h6; cases h6

/-- C209, what is so always: a trust anchor that names nobody above it has no trust chain, whatever was resolved before; there is nothing in the store either. -/
theorem C209_no_chain (jar : KeyJar) (h : List (Env × String)) (V : Env) (e : String) (ha : e ∈ V.P.anchors) (hh : ∀ p ∈ h, e ∈ p.1.P.anchors) (hn : NamesNobody h V e) :
    (∀ stopAt out, (getVerified V (runGets { jar := jar } h) e stopAt).1 = .ok out → out = []) ∧
    (∀ out, (getTrustChains V (runGets { jar := jar } h) e).1 = .ok out → out = []) ∧
    (∀ md, (getVerifiedMetadata V (runGets { jar := jar } h) e).1 = .ok md → md = none) := by
  have fresh : ∀ (b : List (Env × String)) (V' : Env), (∀ p ∈ b, p ∈ h) → (V' = V ∨ ∃ p ∈ h, p.1 = V') → ∀ stopAt out, (getVerified V' (runGets { jar := jar } b) e stopAt).1 = .ok out → out = [] := by
    intro b V' hb hV stopAt out ho
    refine getVerified_anchor V' _ e stopAt ?_ (fun j hj => ?_) out ho
    · rcases hV with rfl | ⟨p, hp, rfl⟩
      · exact ha
      · exact hh p hp
    · obtain ⟨W, hW, hWc⟩ := configFrom_published hj
      refine hn W ?_ j hWc
      rcases hW with rfl | ⟨p, hp, rfl⟩
      · rcases hV with rfl | ⟨p, hp, rfl⟩
        · exact .inl rfl
        · exact .inr ⟨p, hp, rfl⟩
      · exact .inr ⟨p, hb p hp, rfl⟩
  have first := fresh h V (fun _ hp => hp) (.inl rfl)
  have second : ∀ out, (getTrustChains V (runGets { jar := jar } h) e).1 = .ok out → out = [] := by
    intro out ho
    unfold getTrustChains at ho
    cases hs : (runGets { jar := jar } h).store.get? e with
    | some tcs =>
      obtain ⟨hne, b, V', a, hb, hg⟩ := C47_stored_was_resolved_partial jar h e tcs hs
      exact absurd (fresh b V' (fun p hp => by rw [hb]; simp [hp]) (.inr ⟨(V', e), by rw [hb]; simp, rfl⟩) "" tcs hg) hne
    | none =>
      rw [hs] at ho
      simp only at ho
      have := first ""
      generalize getVerified V (runGets { jar := jar } h) e = r at ho this
      obtain ⟨r1, st1⟩ := r
      match r1 with
      | .error x => cases ho
      | .ok [] => cases ho; rfl
      | .ok (tc :: tcs) => exact absurd (this _ rfl) (by simp)
  refine ⟨first, second, fun md hmd => ?_⟩
  unfold getVerifiedMetadata at hmd
  generalize getTrustChains V (runGets { jar := jar } h) e = r at hmd second
  obtain ⟨r1, st1⟩ := r
  cases r1 with
  | error x => cases hmd
  | ok tcs =>
    have := second tcs rfl
    subst this
    cases hmd
    rfl

/-- C209, of the metadata, in full: the metadata that a configured trust anchor publishes, signed with a key it is known by, is what it is resolved to. -/
def C209_metadata_full : Prop :=
  ∀ (V : Env) (jar : KeyJar) (e : String) (j : Jws) (md : Dict Policy.Metadata), e ∈ V.P.anchors → V.W.config e = .ok (some j) → j.payload.iss = e → j.payload.sub = e → selfVerify V.L.toCrypto V.W.now j = .ok j.payload →
    (∃ k ∈ jar.keysOf e, V.L.usable j k = true ∧ V.L.verifies j k = true) → j.payload.metadata = some md →
    (getVerifiedMetadata V { jar := jar } e).1 = .ok (some (md.map fun p => (p.1, mdVal (some p.2))))

/-- C209 fails: a trust anchor that names nobody above it is not resolved. -/
theorem C209_metadata_violation : ¬ C209_metadata_full := by
  intro h
  have := h (Ex.env (Ex.W 0)) [("https://ta", [1])] "https://ta" (Ex.conf "https://ta" none (Ex.fe true)) (Ex.fe true) (by decide) rfl rfl rfl (by decide +kernel) ⟨1, by decide, rfl, by decide +kernel⟩ rfl
  revert this
  decide +kernel

namespace Ex209
/-- The trust anchor names itself. -/
def W : Collect.World := { Ex.W 0 with config := fun k => if k = "https://ta" then .ok (some (Ex.conf k (some ["https://ta"]) (Ex.fe true))) else (Ex.W 0).config k }
end Ex209

/-- C209 fails: a trust anchor that names itself is not resolved either; it ends in an error. -/
theorem C209_self_named_violation : ¬ C209_metadata_full := by
  intro h
  have := h (Ex.env Ex209.W) [("https://ta", [1])] "https://ta" (Ex.conf "https://ta" (some ["https://ta"]) (Ex.fe true)) (Ex.fe true) (by decide) rfl rfl rfl (by decide +kernel) ⟨1, by decide, rfl, by decide +kernel⟩ rfl
  revert this
  decide +kernel

example : (getVerifiedMetadata (Ex.env (Ex.W 0)) Ex.st "https://ta").1 = .ok none ∧ (getVerifiedMetadata (Ex.env Ex209.W) Ex.st "https://ta").1 = .error .keyError := by decide +kernel
/-- The hypotheses of `C209_no_chain`; others are resolved. -/
example : NamesNobody [(Ex.env (Ex.W 0), "https://leaf")] (Ex.env (Ex.W 0)) "https://ta" ∧ (getTrustChains (Ex.env (Ex.W 0)) Ex.st "https://leaf").1 = .ok [Ex.leafChain] := by
  refine ⟨fun W hW j hj => ?_, by decide +kernel⟩
  have : W = Ex.W 0 := by
    rcases hW with rfl | ⟨p, hp, rfl⟩
    · rfl
    · simp only [List.mem_singleton] at hp; subst hp; rfl
  subst this
  cases hj
  exact ⟨fun hs hh => (by cases hh), fun md hm => (by cases hm; decide +kernel)⟩

end Fed.Chains

namespace Fed.TrustMarks
open Fed Verify

/-- C209, of trust marks, always: no trust mark of a trust anchor that names nobody above it is accepted, whatever it says, however it is signed and whatever was resolved before. -/
theorem C209_no_mark (T : TmLib) (O : StatusOracle) (jar : KeyJar) (h : List (Chains.Env × String)) (V : Chains.Env) (e : String) (ha : e ∈ V.P.anchors) (hh : ∀ p ∈ h, e ∈ p.1.P.anchors)
    (hn : Chains.NamesNobody h V e) (t : Tm) (ht : t.payload.iss = some e) (check : Bool) (r : Option TmPayload)
    (hr : (verifyTrustMark T V O (Chains.runGets { jar := jar } h) (some t) check).1 = .ok r) : r = none := by
  unfold verifyTrustMark at hr
  simp only [ht] at hr
  have := (Chains.C209_no_chain jar h V e ha hh hn).2.1
  generalize Chains.getTrustChains V (Chains.runGets { jar := jar } h) e = g at hr this
  obtain ⟨g1, st1⟩ := g
  match g1 with
  | .error x => cases hr
  | .ok [] => cases hr; rfl
  | .ok (tc :: tcs) => exact absurd (this _ rfl) (by simp)

/-- C209, of trust marks, in full: a trust mark that a configured trust anchor has signed with a key it is known by, and that has not expired, is accepted. -/
def C209_mark_full : Prop :=
  ∀ (T : TmLib) (O : StatusOracle) (V : Chains.Env) (jar : KeyJar) (e : String) (j : Jws) (t : Tm) (c : String × String × String), e ∈ V.P.anchors → V.W.config e = .ok (some j) →
    selfVerify V.L.toCrypto V.W.now j = .ok j.payload → t.payload.verify = .ok c → t.payload.iss = some e → isExpired V.W.now t.payload.exp = false → t.payload.delegation = none →
    (∃ k ∈ jar.keysOf e, T.usable t k = true ∧ T.verifies t k = true) → (verifyTrustMark T V O { jar := jar } (some t) false).1 = .ok (some t.payload)

/-- C209, of the verifier itself, which is told the trust anchor: nor does it accept such a mark. -/
theorem C209_no_mark_verifier (T : TmLib) (jar : KeyJar) (h : List (Chains.Env × String)) (V : Chains.Env) (e : String) (ha : e ∈ V.P.anchors) (hh : ∀ p ∈ h, e ∈ p.1.P.anchors)
    (hn : Chains.NamesNobody h V e) (t : Tm) (ht : t.payload.iss = some e) (hd : t.payload.delegation = none) (anchor : String) (r : Option TmPayload)
    (hr : (verifyMark T V (Chains.runGets { jar := jar } h) (some t) anchor).1 = .ok r) : r = none := by
  unfold verifyMark at hr
  simp only at hr
  split at hr
  · cases hr
  · rename_i iss sub id hv
    have hi : iss = e := by
      unfold TmPayload.verify at hv
      rw [ht] at hv
      split at hv
      · rename_i h1 _ _ _; cases hv; cases h1; rfl
      · cases hv
    subst hi
    split at hr
    · cases hr; rfl
    · rw [show checkDelegation T V (Chains.runGets { jar := jar } h) anchor id t.payload = (.ok (), Chains.runGets { jar := jar } h) by
        unfold checkDelegation; rw [hd]] at hr
      simp only at hr
      have := (Chains.C209_no_chain jar h V iss ha hh hn).1 ""
      generalize Chains.getVerified V (Chains.runGets { jar := jar } h) iss = g at hr this
      obtain ⟨g1, st1⟩ := g
      match g1 with
      | .error x => cases hr
      | .ok out =>
        have := this out rfl
        subst this
        cases hr
        rfl

namespace Ex209
/-- A trust mark the trust anchor has signed. -/
def taMark : Tm := ⟨{ iss := some "https://ta", sub := some "https://rp", id := some "tm", iat := some 1, exp := some 100 }, 1⟩
def O : StatusOracle := fun _ _ _ => .ok [("active", .bool true)]
end Ex209

/-- C209 fails: a mark made and signed by the trust anchor, with the key configured for it, is not accepted. -/
theorem C209_mark_violation : ¬ C209_mark_full := by
  intro h
  have := h Ex.T Ex209.O Ex.V [("https://ta", [1])] "https://ta" (Chains.Ex.conf "https://ta" none Ex.taMd) Ex209.taMark ("https://ta", "https://rp", "tm") (by decide) rfl (by decide +kernel) rfl rfl rfl rfl
    ⟨1, by decide, rfl, by decide +kernel⟩
  revert this
  decide +kernel

example : (verifyTrustMark Ex.T Ex.V Ex209.O Ex.st (some Ex209.taMark) false).1 = .ok none ∧ (verifyMark Ex.T Ex.V Ex.st (some Ex209.taMark) "https://ta").1 = .ok none := by decide +kernel
/-- The same mark made by an entity below the trust anchor is. -/
example : (verifyTrustMark Ex.T Ex.V Ex209.O Ex.st (some (Ex.mark "tm")) false).1 = .ok (some (Ex.mark "tm").payload) := by decide +kernel
example : Chains.NamesNobody [] Ex.V "https://ta" := by
  intro W hW j hj
  have : W = Ex.W := by
    rcases hW with rfl | ⟨p, hp, rfl⟩
    · rfl
    · cases hp
  subst this
  cases hj
  exact ⟨fun hs hh => (by cases hh), fun md hm => (by cases hm; decide +kernel)⟩

end Fed.TrustMarks
