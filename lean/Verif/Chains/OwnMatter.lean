import Verif.Chains.Declared
/-
C247: what entities say about themselves in their configurations makes no difference to others, apart from where they can be asked and who is above them (`get_federation_fetch_endpoint`, `collect_tree`, `_get_entity_statement` and `collect_branch`,
/repo/src/fedservice/entity/function/trust_chain_collector.py 184-341; `get_verified_trust_chains`, /repo/src/fedservice/entity/function/__init__.py 154-161).
-/
namespace Fed.Chains
open Fed Fed.Verify Fed.Server

/-- Two configurations of an entity that agree about who it is, who is above it, where it answers and until when the configuration is valid, and are both properly self-signed or both not. Whatever else is said, metadata, keys, policies, constraints and so on, may differ. -/
structure SamePlace (C : Crypto) (j' j : Jws) : Prop where
  iss : j'.payload.iss = j.payload.iss
  hints : j'.payload.hints = j.payload.hints
  exp : j'.payload.exp = j.payload.exp
  endpoint : Collect.getFetchEndpoint j'.payload = Collect.getFetchEndpoint j.payload
  signed : ∀ t, selfVerify C t j' = .ok j'.payload ↔ selfVerify C t j = .ok j.payload

/-- The same federation, in which entities say other things about themselves. -/
structure SamePlaces (C : Crypto) (F' F : Collect.Federation) : Prop where
  config : ∀ e, F'.config e = F.config e ∨ ∃ j' j, F'.config e = .ok (some j') ∧ F.config e = .ok (some j) ∧ SamePlace C j' j
  fetch : F'.fetch = F.fetch

/-- The same federation, in which entities other than `sub` say other things about themselves. -/
structure OthersDiffer (C : Crypto) (sub : String) (F' F : Collect.Federation) : Prop extends SamePlaces C F' F where
  own : F'.config sub = F.config sub

section
open Collect

variable {C : Crypto} {F F' : Federation} {sub : String}

theorem SamePlaces.published (h : SamePlaces C F' F) (t : Int) (a : String) :
    (publishedConfig C F' t a = none ∧ publishedConfig C F t a = none) ∨ ∃ j' j, publishedConfig C F' t a = some j' ∧ publishedConfig C F t a = some j ∧ j'.payload.iss = j.payload.iss ∧ j'.payload.hints = j.payload.hints ∧ j'.payload.exp = j.payload.exp ∧
      getFetchEndpoint j'.payload = getFetchEndpoint j.payload := by
  rcases h.config a with e | ⟨j', j, e1, e2, hs⟩
  · have : publishedConfig C F' t a = publishedConfig C F t a := by unfold publishedConfig; rw [e]
    rw [this]
    cases publishedConfig C F t a with
    | none => exact Or.inl ⟨rfl, rfl⟩
    | some j => exact Or.inr ⟨j, j, rfl, rfl, rfl, rfl, rfl, rfl⟩
  · unfold publishedConfig
    rw [e1, e2]
    simp only
    by_cases hv : selfVerify C t j = .ok j.payload
    · rw [if_pos hv, if_pos ((hs.signed t).2 hv)]
      exact Or.inr ⟨j', j, rfl, rfl, hs.iss, hs.hints, hs.exp, hs.endpoint⟩
    · rw [if_neg hv, if_neg (fun h => hv ((hs.signed t).1 h))]
      exact Or.inl ⟨rfl, rfl⟩

theorem SamePlaces.statement (h : SamePlaces C F' F) (t : Int) (a e : String) : publishedStatement C F' t a e = publishedStatement C F t a e := by
  unfold publishedStatement
  rcases h.published t a with ⟨h1, h2⟩ | ⟨j', j, h1, h2, -, -, -, h3⟩
  · rw [h1, h2]
  · rw [h1, h2]
    simp only
    rw [h3, h.fetch]

theorem SamePlaces.tree (h : SamePlaces C F' F) {P : Params} {t : Int} {s : String} : ∀ (n : Nat) (e : String) (p' p : Payload), p'.hints = p.hints → p'.iss = p.iss → idealTree C P F' t s n e p' = idealTree C P F t s n e p
  | 0, _, _, _, _, _ => rfl
  | n + 1, e, p', p, h1, h2 => by
    have hb : idealBranch C P F' t (idealTree C P F' t s n) e = idealBranch C P F t (idealTree C P F t s n) e := by
      funext a
      unfold idealBranch
      rw [h.statement]
      rcases h.published t a with ⟨g1, g2⟩ | ⟨j', j, g1, g2, g3, g4, g5, -⟩
      · rw [g1, g2]
      · rw [g1, g2]
        have hf : freshAt P t j' = freshAt P t j := by unfold freshAt; rw [g5]
        simp only [h.tree n a j'.payload j.payload g4 g3, hf]
    unfold idealTree
    rw [h1, h2, hb]

theorem OthersDiffer.collect (h : OthersDiffer C sub F' F) {P : Params} {t : Int} {s : String} {n : Nat} : idealCollect C P F' t n sub s = idealCollect C P F t n sub s := by
  have : publishedConfig C F' t sub = publishedConfig C F t sub := by unfold publishedConfig; rw [h.own]
  unfold idealCollect
  rw [this]
  cases publishedConfig C F t sub with
  | none => rfl
  | some j => simp only [h.tree n sub j.payload j.payload rfl rfl]

end

/-- What is resolved depends on what is collected and on the key jar. -/
theorem resolved_of_collected {V V' : Env} {st st' : State} {sub stopAt : String} {out : List TrustChain} (hL : V'.L = V.L) (hE : V'.E = V.E) (hK : V'.K = V.K) (hj : st'.jar = st.jar)
    (hc : (Collect.collect V'.L.toCrypto V'.P V'.W V'.fuel st'.coll sub stopAt).1.toOption = (Collect.collect V.L.toCrypto V.P V.W V.fuel st.coll sub stopAt).1.toOption) (h : (getVerified V st sub stopAt).1 = .ok out) :
    (getVerified V' st' sub stopAt).1 = .ok out := by
  obtain ⟨f, ec, tcs, c1, c2, c3, -⟩ := getVerified_ok h
  rw [c1] at hc
  have c1' := toOption_some hc
  unfold getVerified
  generalize Collect.collect V'.L.toCrypto V'.P V'.W V'.fuel st'.coll sub stopAt = r at c1' ⊢
  obtain ⟨r, coll⟩ := r
  simp only at c1'
  subst c1'
  simp only
  rw [hL, hj, hE, hK]
  unfold docs at c2
  generalize verifyChains V.L ((Collect.tree2chains f).map fun c => c.map some ++ [some ec]) st.jar = r at c2 ⊢
  obtain ⟨r, jar⟩ := r
  simp only at c2
  subst c2
  simp only
  rw [c3]

/-- C247: whatever the other members of a federation say about themselves, in metadata, keys, policies or constraints of their configurations, as long as they are found in the same places, an entity is resolved by the same trust chains, with the same metadata: exactly the same answer. The caches are those of any earlier runs. -/
theorem C247_own_matter (F F' : Collect.Federation) (V : Env) (st st' : State) (h h' : List Collect.FRun) (sub stopAt : String) (out : List TrustChain)
    (w : Within F V st h) (w' : Within F' { V with W := F'.at V.W.now } st' h') (hj : st'.jar = st.jar) (hd : F.Dated) (hd' : F'.Dated) (hp : F.PlainHints) (hp' : F'.PlainHints) (hsub : Collect.Plain sub)
    (hr : OthersDiffer V.L.toCrypto sub F' F) : (getVerified { V with W := F'.at V.W.now } st' sub stopAt).1 = .ok out ↔ (getVerified V st sub stopAt).1 = .ok out := by
  have i1 := w'.ideal hd' hp' hsub stopAt
  have i2 := w.ideal hd hp hsub stopAt
  have hn : ({ V with W := F'.at V.W.now } : Env).W.now = V.W.now := rfl
  rw [hn, hr.collect, ← i2] at i1
  exact ⟨resolved_of_collected rfl rfl rfl hj.symm i1.symm, resolved_of_collected rfl rfl rfl hj i1⟩

namespace Ex247
/-- `leaf` is below `im`, which is below `ta`. `j` is the configuration of `im`. -/
def F (j : Jws) : Collect.Federation where
  config
    | "https://ta" => .ok (some (Ex219.conf "https://ta" none (Ex.fe true)))
    | "https://im" => .ok (some j)
    | "https://leaf" => .ok (some (Ex219.conf "https://leaf" (some ["https://im"]) [("openid_relying_party", [("scopes", .str "openid")])]))
    | _ => .error .missingPage
  fetch _ a e := .ok (some (Ex219.about a e))

/-- What `im` said before, and what it says now: it is a provider too, has another key, and there are a policy and a constraint in its own configuration, in conflict with what `leaf` says and is called. -/
def before : Jws := Ex219.conf "https://im" (some ["https://ta"]) (Ex.fe true)
def now : Jws := ⟨{ before.payload with metadata := some (Ex.fe true ++ [("openid_provider", [("issuer", .str "https://im")])]), jwks := some [7, 2], policy := Ex219.scopes "phone", constraints := some ⟨some 0, some ⟨none, some ["https://leaf"]⟩⟩ }, before.sig⟩

theorem known {j0 j : Jws} (h0 : j0.payload.exp = some 10000 ∧ j0.payload.hints = some ["https://ta"]) {k : String} (h : (F j0).config k = .ok (some j)) : j.payload.exp = some 10000 ∧ ∀ l, j.payload.hints = some l → ∀ a ∈ l, Collect.Plain a := by
  simp only [F] at h
  split at h <;> cases h
  · exact ⟨rfl, fun l hl => by cases hl⟩
  · refine ⟨h0.1, fun l hl => ?_⟩
    rw [h0.2] at hl
    cases hl
    decide
  · refine ⟨rfl, fun l hl => ?_⟩
    cases hl
    decide

variable {j0 : Jws} (h0 : j0.payload.exp = some 10000 ∧ j0.payload.hints = some ["https://ta"])
include h0
theorem dated : (F j0).Dated := fun _ _ h => ⟨10000, (known h0 h).1⟩
theorem plainHints : (F j0).PlainHints := fun _ _ l h hl => (known h0 h).2 l hl
theorem inForce : (F j0).InForce Ex.L.toCrypto 0 := by
  intro k j h
  simp only [Ex.L, notExpired, (known h0 h).1]
  decide
omit h0

theorem samePlace : SamePlace Ex.L.toCrypto now before where
  iss := rfl
  hints := rfl
  exp := rfl
  endpoint := rfl
  signed t := by
    have h1 : selfVerify Ex.L.toCrypto t now = if notExpired t now then .ok now.payload else .error .badSignature := rfl
    have h2 : selfVerify Ex.L.toCrypto t before = if notExpired t before then .ok before.payload else .error .badSignature := rfl
    have h3 : notExpired t now = notExpired t before := rfl
    rw [h1, h2, h3]
    cases notExpired t before <;> simp

theorem differ : OthersDiffer Ex.L.toCrypto "https://leaf" (F now) (F before) where
  own := rfl
  config e := by
    simp only [F]
    split
    · exact Or.inl rfl
    · exact Or.inr ⟨_, _, rfl, rfl, samePlace⟩
    · exact Or.inl rfl
    · exact Or.inl rfl
  fetch := rfl

abbrev V (j : Jws) : Env := Ex221.V (F j) ["https://ta"]
abbrev st : State := { jar := [("https://ta", [1])] }

/-- The case of C247. -/
example : Ex229.result (getVerified (V now) st "https://leaf").1 = .ok [("https://ta", [("openid_relying_party", .obj [("scopes", .str "openid")])])] := by decide +kernel

example (out : List TrustChain) : (getVerified (V now) st "https://leaf").1 = .ok out ↔ (getVerified (V before) st "https://leaf").1 = .ok out :=
  C247_own_matter (F before) (F now) (V before) st st [] [] "https://leaf" "" out (Ex221.within (inForce ⟨rfl, rfl⟩) _ _) (Ex221.within (inForce ⟨rfl, rfl⟩) _ _) rfl (dated ⟨rfl, rfl⟩) (dated ⟨rfl, rfl⟩) (plainHints ⟨rfl, rfl⟩) (plainHints ⟨rfl, rfl⟩) (by decide) differ
end Ex247

end Fed.Chains
