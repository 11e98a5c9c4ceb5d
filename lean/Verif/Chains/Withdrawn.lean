import Verif.Collect.Withdrawn
import Verif.Chains.Props
/-
Property C199: what an authority no longer says ends with the statements it had made.
-/
namespace Fed.Chains
open Fed Verify

/-- A tree without statements by `a` about `e`, in terms of where its statements come from. -/
theorem faithful_without {src : String → String → Jws → Prop} {cfg : String → Jws → Prop} {gone : String → String → Prop}
    {stopAt a e entity : String} {c : Payload} {f : Collect.Forest Jws} (h : Collect.Faithful src cfg gone stopAt entity c f) :
    Collect.Without a e entity f →
      Collect.Faithful (fun a' e' s => src a' e' s ∧ ¬ (a' = a ∧ e' = e)) cfg gone stopAt entity c f := by
  induction h with
  | noHints h => exact fun _ => .noHints h
  | stopped h => exact fun _ => .stopped h
  | hints conf h1 h2 h3 h4 h5 h6 h7 ih =>
    intro hw
    cases hw with
    | mk w1 w2 =>
      exact .hints conf h1 h2 h3 h4 (fun i s sub hi => ⟨h5 i s sub hi, w1 i s sub hi⟩) h6 (fun i s sub hi => ih i s sub hi (w2 i s sub hi))

theorem getVerified_coll {V : Env} {st : State} {entity stopAt : String} :
    (getVerified V st entity stopAt).2.coll = (Collect.collect V.L.toCrypto V.P V.W V.fuel st.coll entity stopAt).2 := by
  unfold getVerified
  generalize Collect.collect V.L.toCrypto V.P V.W V.fuel st.coll entity stopAt = r
  obtain ⟨r1, coll⟩ := r
  rcases r1 with e | ⟨f, ec⟩
  · rfl
  · simp only
    generalize verifyChains V.L _ st.jar = r
    obtain ⟨r1, jar⟩ := r
    cases r1 with
    | error e => rfl
    | ok tcs =>
      simp only
      cases applyPolicies V.E V.K tcs <;> rfl

theorem getTrustChains_coll {V : Env} {st : State} {entity : String} :
    (getTrustChains V st entity).2.coll = st.coll ∨ (getTrustChains V st entity).2.coll = (getVerified V st entity).2.coll := by
  unfold getTrustChains
  cases st.store.get? entity with
  | some tcs => exact .inl rfl
  | none =>
    right
    simp only
    generalize getVerified V st entity = r
    obtain ⟨r1, st1⟩ := r
    match r1 with
    | .error e => rfl
    | .ok [] => rfl
    | .ok (tc :: tcs) => rfl

/-- The caches of the collector after a history have what each collection keeps. -/
theorem runGets_coll {I : Collect.State → Prop} : ∀ (h : List (Env × String)) (st : State), I st.coll →
    (∀ p ∈ h, ∀ coll, I coll → I (Collect.collect p.1.L.toCrypto p.1.P p.1.W p.1.fuel coll p.2 "").2) → I (runGets st h).coll
  | [], _, h0, _ => h0
  | p :: h, st, h0, hk => by
      refine runGets_coll h (getTrustChains p.1 st p.2).2 ?_ (fun q hq => hk q (List.mem_cons_of_mem _ hq))
      rcases getTrustChains_coll (V := p.1) (st := st) (entity := p.2) with h1 | h1
      · rw [h1]; exact h0
      · rw [h1, getVerified_coll]; exact hk p (by simp) _ h0

/-- What is known of the statements an authority has made about an entity: in all that was resolved so far they expire at `last` or
before, and now there are none. -/
structure Withdrawn (h : List (Env × String)) (V : Env) (a e : String) (last : Int) : Prop where
  before : ∀ p ∈ h, Collect.GivenUntil p.1.W a e last
  now : Collect.Withheld V.W a e

/-- All that the entity has published: it names no authority outside `as`, and has no metadata for an entity type without a name. -/
def NamesOnly (h : List (Env × String)) (V : Env) (e : String) (as : List String) : Prop :=
  ∀ W, (W = V.W ∨ ∃ p ∈ h, W = p.1.W) → ∀ j, W.config e = .ok (some j) →
    (∀ hs, j.payload.hints = some hs → ∀ a ∈ hs, a ∈ as) ∧ ∀ md, j.payload.metadata = some md → md.get? "" = none

/-- C199 in full: when all authorities that an entity names have stopped making statements about it, and the statements they had made
have expired, the entity is no longer resolved. -/
def C199_full : Prop :=
  ∀ (jar : KeyJar) (h : List (Env × String)) (V : Env) (e : String) (as : List String) (last : Int),
    Collect.Plain e → (∀ a ∈ as, Collect.Plain a) → (∀ a ∈ as, Withdrawn h V a e last) → NamesOnly h V e as →
    V.W.now ≥ last → V.W.now > last - V.P.delta →
    ∀ out, (getTrustChains V (runGets { jar := jar } h) e).1 = .ok out → out = []

namespace Ex199
/-- The federation of `Ex` at time 20000, when `im` has dropped the leaf. -/
def W : Collect.World := { Ex.W 20000 with fetch := fun ep a e => if e = "https://leaf" then .error .failedRetrieval else (Ex.W 20000).fetch ep a e }
end Ex199

/-- The chain that was stored when the entity was still in the federation is given for good. -/
theorem C199_stored_violation : ¬ C199_full := by
  intro h
  have hout : (getTrustChains (Ex.env Ex199.W) (runGets { jar := [("https://ta", [1])] } [(Ex.env (Ex.W 0), "https://leaf")]) "https://leaf").1 =
      .ok [Ex.leafChain] := by decide +kernel
  have := h [("https://ta", [1])] [(Ex.env (Ex.W 0), "https://leaf")] (Ex.env Ex199.W) "https://leaf" ["https://im"] 10000
    (by decide +kernel) (by decide +kernel) ?_ ?_ (by decide +kernel) (by decide +kernel) _ hout
  · cases this
  · intro a ha
    simp only [List.mem_singleton] at ha
    subst ha
    refine ⟨fun p hp ep j x hj hx => ?_, fun ep j hj => ?_⟩
    · simp only [List.mem_singleton] at hp
      subst hp
      simp only [Ex.env, Ex.W, Except.ok.injEq, Option.some.injEq] at hj
      subst hj
      simp only [Ex.about, Option.some.injEq] at hx
      omega
    · simp [Ex.env, Ex199.W] at hj
  · intro W hW j hj
    have : j = Ex.conf "https://leaf" (some ["https://im"]) (Ex.rp (.str "admin")) := by
      rcases hW with rfl | ⟨p, hp, rfl⟩
      · simpa [Ex.env, Ex199.W, Ex.W] using hj.symm
      · simp only [List.mem_singleton] at hp
        subst hp
        simpa [Ex.env, Ex.W] using hj.symm
    subst this
    refine ⟨fun hs h => ?_, fun md h => ?_⟩
    · simp only [Ex.conf, Option.some.injEq] at h
      subst h
      simp
    · simp only [Ex.conf, Option.some.injEq] at h
      subst h
      decide +kernel

/-- What the caches of the collector say about the pair after a history. -/
theorem Withdrawn.noted {h : List (Env × String)} {V : Env} {a e : String} {last : Int} (hw : Withdrawn h V a e last)
    (ha : Collect.Plain a) (he : Collect.Plain e) (jar : KeyJar) : Collect.NotedUntil a e last (runGets { jar := jar } h).coll := by
  refine runGets_coll h { jar := jar } (fun x hx => by simp at hx) (fun p hp coll hI => ?_)
  exact (Collect.NotedUntil.kept ha he (hw.before p hp)).collect _ _ _ _ hI

/-- C199 for chains that are resolved anew: whatever was resolved before, no chain for any entity goes through the authority to the
entity. Each step of a chain is from an authority to an entity that names it, with the statement the authority gave; and it is not
this step. Missing: chains that had been stored, and identifiers with exclamation marks. -/
theorem C199_no_chain_partial (jar : KeyJar) (h : List (Env × String)) (V : Env) (a e : String) (last : Int)
    (ha : Collect.Plain a) (he : Collect.Plain e) (hw : Withdrawn h V a e last) (hn : V.W.now > last - V.P.delta)
    (entity stopAt : String) (out : List TrustChain) (ho : (getVerified V (runGets { jar := jar } h) entity stopAt).1 = .ok out)
    (tc : TrustChain) (ht : tc ∈ out) :
    ∃ ec p, Collect.ConfigFrom V.L.toCrypto V.W (runGets { jar := jar } h).coll entity ec ∧
      HintPath (fun a' e' s => (Collect.Plain a' → Collect.Plain e' →
          Collect.StatementFrom V.L.toCrypto V.W (runGets { jar := jar } h).coll a' e' s) ∧ ¬ (a' = a ∧ e' = e))
        (Collect.ConfigFrom V.L.toCrypto V.W (runGets { jar := jar } h).coll) entity ec.payload p ∧
      tc.verified = ((p.map (·.2)).reverse ++ [ec]).map (·.payload) := by
  have hnoted := hw.noted ha he jar
  generalize runGets { jar := jar } h = st at ho hnoted ⊢
  obtain ⟨f, ec, tcs, h1, h2, h3, -⟩ := getVerified_ok ho
  obtain ⟨tc0, hm, hap⟩ := (applyPolicies_mem h3).1 tc ht
  have same : tc.verified = tc0.verified := by
    obtain ⟨_, _, _, _, ⟨_, _, _, rfl⟩ | ⟨_, _, _, rfl⟩⟩ := applyToChain_ok.1 hap <;> rfl
  obtain ⟨pre, c, post, hd, hv⟩ := (verifyChains_mem h2 tc0).1 hm
  obtain ⟨-, d2, -, -⟩ := C42_describes_chain _ _ _ _ hv
  have hcm : c ∈ docs f ec := by rw [hd]; simp
  obtain ⟨c0, hc0, rfl⟩ := List.mem_map.1 hcm
  obtain ⟨p, hp, rfl⟩ := (Collect.tree2chains_mem f c0).1 hc0
  obtain ⟨e1, -, e3⟩ := Collect.C31_tree_faithful_partial _ _ _ _ _ _ _ _ _ h1
  have hst : statements ((Collect.chainOf p).map some ++ [some ec]) = Collect.chainOf p ++ [ec] := by
    simp [statements, List.filterMap_map, List.filterMap_append]
  have hwo := Collect.collect_without ha he hw.now hn hnoted h1
  refine ⟨ec, p, e1, hintPath_of_faithful ((faithful_without e3 hwo).mono (fun _ _ _ h => h) (fun _ _ h => h.1) (fun _ _ h => h)) p hp, ?_⟩
  rw [same, d2, hst]; rfl

/-- The configuration a collection starts from is one that the entity published. -/
theorem configFrom_published {h : List (Env × String)} {V : Env} {jar : KeyJar} {e : String} {j : Jws}
    (hj : Collect.ConfigFrom V.L.toCrypto V.W (runGets { jar := jar } h).coll e j) :
    ∃ W, (W = V.W ∨ ∃ p ∈ h, W = p.1.W) ∧ W.config e = .ok (some j) := by
  have hc : ∀ c, (runGets { jar := jar } h).coll.config.get? e = some c → ∃ p ∈ h, p.1.W.config e = .ok (some c.jws) := by
    refine runGets_coll (I := fun coll => ∀ c, coll.config.get? e = some c → ∃ p ∈ h, p.1.W.config e = .ok (some c.jws)) h
      { jar := jar } (fun c hc => by simp at hc) (fun p hp coll hI c hc => ?_)
    rcases Collect.collect_faithful.1.config e c hc with h1 | ⟨h1, -⟩
    · exact hI c h1
    · exact ⟨p, hp, h1⟩
  rcases hj with h1 | ⟨h1, -⟩
  · obtain ⟨p, hp, h2⟩ := hc _ h1
    exact ⟨p.1.W, .inr ⟨p, hp, rfl⟩, h2⟩
  · exact ⟨V.W, .inl rfl, h1⟩

/-- An entity is not resolved anew if the authorities it names make no statements about it and nothing that is remembered of theirs is in force. -/
theorem dropped_of (V : Env) (st : State) (e : String) (as : List String) (last : Int) (he : Collect.Plain e) (ha : ∀ a ∈ as, Collect.Plain a) (hw : ∀ a ∈ as, Collect.Withheld V.W a e)
    (hnoted : ∀ a ∈ as, Collect.NotedUntil a e last st.coll)
    (hp : ∀ j, Collect.ConfigFrom V.L.toCrypto V.W st.coll e j → (∀ hs, j.payload.hints = some hs → ∀ a ∈ hs, a ∈ as) ∧ ∀ md, j.payload.metadata = some md → md.get? "" = none)
    (hn : V.W.now > last - V.P.delta) (stopAt : String) (out : List TrustChain) (ho : (getVerified V st e stopAt).1 = .ok out) : out = [] := by
  rw [List.eq_nil_iff_forall_not_mem]
  intro tc ht
  -- the chain consists of the configuration of the entity
  obtain ⟨ec, p, hc, hpath, hver, hcap⟩ : ∃ ec p, Collect.ConfigFrom V.L.toCrypto V.W st.coll e ec ∧
      HintPath (fun a' e' _ => ¬ (a' ∈ as ∧ e' = e))
        (Collect.ConfigFrom V.L.toCrypto V.W st.coll) e ec.payload p ∧
      tc.verified = ((p.map (·.2)).reverse ++ [ec]).map (·.payload) ∧ ∃ tc0, applyToChain V.E V.K tc0 = .ok tc ∧ tc0.verified = tc.verified := by
    obtain ⟨f, ec, tcs, h1, h2, h3, -⟩ := getVerified_ok ho
    obtain ⟨tc0, hm, hap⟩ := (applyPolicies_mem h3).1 tc ht
    have same : tc.verified = tc0.verified := by
      obtain ⟨_, _, _, _, ⟨_, _, _, rfl⟩ | ⟨_, _, _, rfl⟩⟩ := applyToChain_ok.1 hap <;> rfl
    obtain ⟨pre, c, post, hd, hv⟩ := (verifyChains_mem h2 tc0).1 hm
    obtain ⟨-, d2, -, -⟩ := C42_describes_chain _ _ _ _ hv
    have hcm : c ∈ docs f ec := by rw [hd]; simp
    obtain ⟨c0, hc0, rfl⟩ := List.mem_map.1 hcm
    obtain ⟨p, hp, rfl⟩ := (Collect.tree2chains_mem f c0).1 hc0
    obtain ⟨e1, -, e3⟩ := Collect.C31_tree_faithful_partial _ _ _ _ _ _ _ _ _ h1
    have hst : statements ((Collect.chainOf p).map some ++ [some ec]) = Collect.chainOf p ++ [ec] := by
      simp [statements, List.filterMap_map, List.filterMap_append]
    refine ⟨ec, p, e1, ?_, by rw [same, d2, hst]; rfl, tc0, hap, same.symm⟩
    have hall : Collect.Faithful (fun a' e' _ => ¬ (a' ∈ as ∧ e' = e)) (Collect.FreshConfig V.L.toCrypto V.P V.W st.coll)
        (Collect.Gone V.L.toCrypto V.P V.W st.coll) stopAt e ec.payload f := by
      have : ∀ bs : List String, (∀ b ∈ bs, b ∈ as) → Collect.Faithful (fun a' e' _ => ¬ (a' ∈ bs ∧ e' = e))
          (Collect.FreshConfig V.L.toCrypto V.P V.W st.coll) (Collect.Gone V.L.toCrypto V.P V.W st.coll) stopAt e ec.payload f := by
        intro bs
        induction bs with
        | nil => intro _; exact e3.mono (fun _ _ _ _ h => by simp at h) (fun _ _ h => h) (fun _ _ h => h)
        | cons b bs ih =>
          intro hb
          have hwo := Collect.collect_without (ha b (hb b (by simp))) he (hw b (hb b (by simp))) hn (hnoted b (hb b (by simp))) h1
          refine (faithful_without (ih (fun x hx => hb x (by simp [hx]))) hwo).mono (fun a' e' _ h => ?_) (fun _ _ h => h) (fun _ _ h => h)
          rintro ⟨hm, heq⟩
          rcases List.mem_cons.1 hm with hm | hm
          · exact h.2 ⟨hm, heq⟩
          · exact h.1 ⟨hm, heq⟩
      exact this as (fun _ h => h)
    exact hintPath_of_faithful (hall.mono (fun _ _ _ h => h) (fun _ _ h => h.1) (fun _ _ h => h)) p hp
  obtain ⟨hhints, hmd⟩ := hp ec hc
  cases hpath with
  | cons h1 h2 h3 h4 h5 => exact h3 ⟨hhints _ h1 _ h2, rfl⟩
  | nil =>
    obtain ⟨tc0, h1, h2⟩ := hcap
    obtain ⟨leaf, md, h3, h4, h5⟩ := applyToChain_ok.1 h1
    rw [h2, hver] at h3 h5
    simp only [List.map_nil, List.reverse_nil, List.nil_append, List.map_cons, List.getLast?_singleton, Option.some.injEq] at h3
    subst h3
    rcases h5 with ⟨h5, -⟩ | ⟨-, m, h5, -⟩
    · simp at h5
    · rw [hmd md h4] at h5; cases h5

/-- C199 for an entity that is resolved anew: dropped by all the authorities it names, it has no chain. -/
theorem C199_dropped_partial (jar : KeyJar) (h : List (Env × String)) (V : Env) (e : String) (as : List String) (last : Int)
    (he : Collect.Plain e) (ha : ∀ a ∈ as, Collect.Plain a) (hw : ∀ a ∈ as, Withdrawn h V a e last) (hp : NamesOnly h V e as)
    (hn : V.W.now > last - V.P.delta) (stopAt : String) (out : List TrustChain)
    (ho : (getVerified V (runGets { jar := jar } h) e stopAt).1 = .ok out) : out = [] := by
  refine dropped_of V (runGets { jar := jar } h) e as last he ha (fun a hm => (hw a hm).now) (fun a hm => (hw a hm).noted (ha a hm) he jar) (fun j hj => ?_) hn stopAt out ho
  obtain ⟨W, hW, hWc⟩ := configFrom_published hj
  exact hp W hW j hWc

/-- The same through `get_trust_chains`, for an entity of which no chain was stored. -/
theorem C199_not_stored_partial (jar : KeyJar) (h : List (Env × String)) (V : Env) (e : String) (as : List String) (last : Int)
    (he : Collect.Plain e) (ha : ∀ a ∈ as, Collect.Plain a) (hw : ∀ a ∈ as, Withdrawn h V a e last) (hp : NamesOnly h V e as)
    (hn : V.W.now > last - V.P.delta) (hs : (runGets { jar := jar } h).store.get? e = none) (out : List TrustChain)
    (ho : (getTrustChains V (runGets { jar := jar } h) e).1 = .ok out) : out = [] := by
  unfold getTrustChains at ho
  rw [hs] at ho
  simp only at ho
  have := C199_dropped_partial jar h V e as last he ha hw hp hn ""
  generalize getVerified V (runGets { jar := jar } h) e = r at ho this
  obtain ⟨r1, st1⟩ := r
  match r1 with
  | .error x => cases ho
  | .ok [] => cases ho; rfl
  | .ok (tc :: tcs) => exact absurd (this _ rfl) (by simp)

/-- The leaf that was dropped is not resolved anew though it was before; its former authority still is. When the authority has given up its fetch
endpoint as well there is no error, and no chain. -/
def Ex199.W' : Collect.World where
  now := 20000
  config
    | "https://im" => .ok (some (Ex.conf "https://im" (some ["https://ta"]) (Ex.fe false) 90000))
    | "https://leaf" => .ok (some (Ex.conf "https://leaf" (some ["https://im"]) (Ex.rp (.str "admin")) 90000))
    | _ => .error .missingPage
  fetch _ _ _ := .error .failedRetrieval

example : ((getVerified (Ex.env (Ex.W 0)) (runGets { jar := [("https://ta", [1])] } []) "https://leaf").1.toOption.map List.length) = some 1 ∧
    (getVerified (Ex.env Ex199.W') (runGets { jar := [("https://ta", [1])] } [(Ex.env (Ex.W 0), "https://im")]) "https://leaf").1 = .ok [] := by
  decide +kernel
example : Withdrawn [(Ex.env (Ex.W 0), "https://im")] (Ex.env Ex199.W') "https://im" "https://leaf" 10000 := by
  refine ⟨fun p hp ep j x hj hx => ?_, fun ep j hj => by simp [Ex.env, Ex199.W'] at hj⟩
  simp only [List.mem_singleton] at hp
  subst hp
  simp only [Ex.env, Ex.W, Except.ok.injEq, Option.some.injEq] at hj
  subst hj
  simp only [Ex.about, Option.some.injEq] at hx
  omega

end Fed.Chains
