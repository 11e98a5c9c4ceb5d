import Verif.Chains.OwnMatter
/-
C250: what is published elsewhere in a federation, by or about entities that are not above an entity, and what comes of it when that entity is resolved (`get_verified_trust_chains`, /repo/src/fedservice/entity/function/__init__.py 154-161).
-/
namespace Fed.Chains
open Fed Fed.Verify Fed.Server

/-- `a` is `sub` itself, or one gets to it from `sub` by authority hints. -/
inductive Above (F : Collect.Federation) (sub : String) : String → Prop
  | self : Above F sub sub
  | hint {e a : String} {j : Jws} {l : List String} : Above F sub e → F.config e = .ok (some j) → j.payload.hints = some l → a ∈ l → Above F sub a

/-- The two federations are the same as far as `sub` is concerned: in the configurations of those above it, and in what these say about those immediately below them on the way to `sub`. -/
structure SameAbove (sub : String) (F' F : Collect.Federation) : Prop where
  config : ∀ e, Above F sub e → F'.config e = F.config e
  fetch : ∀ v a e j l, Above F sub e → F.config e = .ok (some j) → j.payload.hints = some l → a ∈ l → F'.fetch v a e = F.fetch v a e

section
open Collect

variable {C : Crypto} {F F' : Federation} {sub : String}

theorem idealHints_congr {b' b : String → Option Branch} : ∀ (l : List String) (acc : Forest Jws), (∀ a ∈ l, b' a = b a) → idealHints b' l acc = idealHints b l acc
  | [], _, _ => rfl
  | a :: l, acc, h => by
    unfold idealHints
    rw [h a (by simp)]
    cases b a with
    | none => rfl
    | some x => exact idealHints_congr l _ fun c hc => h c (by simp [hc])

theorem SameAbove.published (h : SameAbove sub F' F) {t : Int} {e : String} (he : Above F sub e) : publishedConfig C F' t e = publishedConfig C F t e := by
  unfold publishedConfig
  rw [h.config e he]

theorem SameAbove.tree (h : SameAbove sub F' F) {P : Params} {t : Int} {s : String} : ∀ (n : Nat) (e : String) (j : Jws), Above F sub e → F.config e = .ok (some j) → idealTree C P F' t s n e j.payload = idealTree C P F t s n e j.payload
  | 0, _, _, _, _ => rfl
  | n + 1, e, j, he, hj => by
    unfold idealTree
    cases hl : j.payload.hints with
    | none => rfl
    | some l =>
      simp only
      split
      · rfl
      · refine idealHints_congr l _ fun a ha => ?_
        have hab : Above F sub a := .hint he hj hl ha
        have hs : publishedStatement C F' t a e = publishedStatement C F t a e := by
          unfold publishedStatement
          simp only [h.published hab, h.fetch _ a e j l he hj hl ha]
        unfold idealBranch
        rw [hs, h.published hab]
        cases hp : publishedConfig C F t a with
        | none => rfl
        | some ja => simp only [h.tree n a ja hab (publishedConfig_iff.1 hp).1]

theorem SameAbove.collect (h : SameAbove sub F' F) {P : Params} {t : Int} {s : String} {n : Nat} : idealCollect C P F' t n sub s = idealCollect C P F t n sub s := by
  unfold idealCollect
  rw [h.published .self]
  cases hp : publishedConfig C F t sub with
  | none => rfl
  | some j => simp only [h.tree n sub j .self (publishedConfig_iff.1 hp).1]

end

/-- C250: whatever is published elsewhere in a federation, by entities one does not get to from an entity by authority hints, or by those above it about others than those on the way to it, the entity is resolved to exactly the same answer, or not at all. The caches are those of any earlier runs, which may have been about others. -/
theorem C250_elsewhere (F F' : Collect.Federation) (V : Env) (st st' : State) (h h' : List Collect.FRun) (sub stopAt : String) (out : List TrustChain)
    (w : Within F V st h) (w' : Within F' { V with W := F'.at V.W.now } st' h') (hj : st'.jar = st.jar) (hd : F.Dated) (hd' : F'.Dated) (hp : F.PlainHints) (hp' : F'.PlainHints) (hsub : Collect.Plain sub)
    (hr : SameAbove sub F' F) : (getVerified { V with W := F'.at V.W.now } st' sub stopAt).1 = .ok out ↔ (getVerified V st sub stopAt).1 = .ok out := by
  have i1 := w'.ideal hd' hp' hsub stopAt
  have i2 := w.ideal hd hp hsub stopAt
  have hn : ({ V with W := F'.at V.W.now } : Env).W.now = V.W.now := rfl
  rw [hn, hr.collect, ← i2] at i1
  exact ⟨resolved_of_collected rfl rfl rfl hj.symm i1.symm, resolved_of_collected rfl rfl rfl hj i1⟩

namespace Ex250
/-- `leaf` and `other` are below `im`, which is below `ta`. Where `gone`, `other` has no configuration, and `im` says nothing about anybody but `leaf`. -/
def F (gone : Bool) : Collect.Federation where
  config
    | "https://ta" => .ok (some (Ex219.conf "https://ta" none (Ex.fe true)))
    | "https://im" => .ok (some (Ex219.conf "https://im" (some ["https://ta"]) (Ex.fe true)))
    | "https://leaf" => .ok (some (Ex219.conf "https://leaf" (some ["https://im"]) [("openid_relying_party", [("scopes", .str "openid")])]))
    | "https://other" => if gone then .error .missingPage else .ok (some (Ex219.conf "https://other" (some ["https://im"]) [("openid_relying_party", [("scopes", .str "openid")])]))
    | _ => .error .missingPage
  fetch _ a e := if gone && a == "https://im" && e != "https://leaf" then .error .missingPage else .ok (some (Ex219.about a e))

variable {gone : Bool}

theorem known {k : String} {j : Jws} (h : (F gone).config k = .ok (some j)) : j.payload.exp = some 10000 ∧ ∀ l, j.payload.hints = some l → ∀ a ∈ l, Collect.Plain a := by
  simp only [F] at h
  split at h
  · cases h; exact ⟨rfl, fun l hl => by cases hl⟩
  · cases h; refine ⟨rfl, fun l hl => ?_⟩; cases hl; decide
  · cases h; refine ⟨rfl, fun l hl => ?_⟩; cases hl; decide
  · cases gone
    · cases h; refine ⟨rfl, fun l hl => ?_⟩; cases hl; decide
    · cases h
  · cases h

theorem dated : (F gone).Dated := fun _ _ h => ⟨10000, (known h).1⟩
theorem plainHints : (F gone).PlainHints := fun _ _ l h hl => (known h).2 l hl
theorem inForce : (F gone).InForce Ex.L.toCrypto 0 := by
  intro k j h
  simp only [Ex.L, notExpired, (known h).1]
  decide

theorem above {e : String} (h : Above (F false) "https://leaf" e) : e = "https://leaf" ∨ e = "https://im" ∨ e = "https://ta" := by
  induction h with
  | self => exact Or.inl rfl
  | hint _ hc hl ha ih =>
    rcases ih with rfl | rfl | rfl <;> cases hc <;> cases hl
    · exact Or.inr (Or.inl (List.mem_singleton.1 ha))
    · exact Or.inr (Or.inr (List.mem_singleton.1 ha))

theorem same : SameAbove "https://leaf" (F true) (F false) where
  config e h := by rcases above h with rfl | rfl | rfl <;> rfl
  fetch v a e j l h hc hl ha := by
    rcases above h with rfl | rfl | rfl <;> cases hc <;> cases hl <;> cases List.mem_singleton.1 ha <;> rfl

abbrev V (gone : Bool) : Env := Ex221.V (F gone) ["https://ta"]
abbrev st : State := { jar := [("https://ta", [1])] }

/-- The case of C250: `leaf` is resolved, though `other` no longer is. -/
example : Ex229.result (getVerified (V true) st "https://leaf").1 = .ok [("https://ta", [("openid_relying_party", .obj [("scopes", .str "openid")])])] := by decide +kernel
example : (Ex229.result (getVerified (V false) st "https://other").1).toOption.isSome = true ∧ (Ex229.result (getVerified (V true) st "https://other").1).toOption.isSome = false := by decide +kernel

example (out : List TrustChain) : (getVerified (V true) st "https://leaf").1 = .ok out ↔ (getVerified (V false) st "https://leaf").1 = .ok out :=
  C250_elsewhere (F false) (F true) (V false) st st [] [] "https://leaf" "" out (Ex221.within inForce _ _) (Ex221.within inForce _ _) rfl dated dated plainHints plainHints (by decide) same
end Ex250

end Fed.Chains
