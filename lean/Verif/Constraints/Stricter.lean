import Verif.Constraints.Complete
/-
C224: what making constraints stricter does to the chains that are accepted.
-/
namespace Fed.Constraints
open Fed

/-- Two lists of the same length whose elements, in order, are in relation. -/
inductive Pairwise2 {α : Type} (R : α → α → Prop) : List α → List α → Prop
  | nil : Pairwise2 R [] []
  | cons {a b : α} {as bs : List α} : R a b → Pairwise2 R as bs → Pairwise2 R (a :: as) (b :: bs)

/-- The path length a statement allows below it. -/
def CStatement.maxLength (st : CStatement) : Option Int := st.constraints.bind (·.maxPathLength)

/-- The naming constraints of one statement, taken by themselves, let a name pass. -/
def CStatement.Lets (st : CStatement) (s : String) : Prop :=
  (st.permitted = [] ∨ ∃ p ∈ st.permitted, moreSpecific s p = .ok true) ∧ ∀ e ∈ st.excluded, moreSpecific s e ≠ .ok true

/-- The path length allowed is no greater. -/
def NoLonger (new old : CStatement) : Prop := ∀ m, old.maxLength = some m → ∃ m', new.maxLength = some m' ∧ m' ≤ m

/-- The constraints of the first statement are at least as strict as those of the second, which is about the same subject. -/
def Stricter (new old : CStatement) : Prop := new.sub = old.sub ∧ NoLonger new old ∧ ∀ s, new.Lets s → old.Lets s

/-- C224 in full: if the constraints in some statements of a chain are made stricter and the chain is accepted then, it was accepted before. The names are URLs. -/
def C224_full : Prop :=
  ∀ (new old : List CStatement) (leaf : CStatement), Pairwise2 Stricter new old → (∀ st ∈ new ++ old, UrlNames st) → UrlNames leaf →
    meetsRestrictions new leaf = .ok true → meetsRestrictions old leaf = .ok true

/-! ### Shorter paths -/

theorem length_ok {c : Constr} {cur : Int} : ¬ calculatePathLength c cur false < 0 ↔ ∀ m, c.maxPathLength = some m → 0 ≤ m := by
  unfold calculatePathLength
  cases c.maxPathLength with
  | none => simp
  | some m => simp

theorem restrictLoop_intro {st : CStatement} {rest : List CStatement} {cur : Int} {acc acc' fin : Acc} (hl : ∀ m, st.maxLength = some m → 0 ≤ m)
    (h1 : st.naming = none → acc' = acc) (h2 : ∀ n, st.naming = some n → addConstraints n acc = .ok acc') (h3 : st.constraints ≠ none → checkNames st.sub acc' = .ok true)
    (h4 : ∀ cur, restrictLoop rest cur false acc' = .ok (some fin)) : restrictLoop (st :: rest) cur false acc = .ok (some fin) := by
  simp only [restrictLoop]
  cases hc : st.constraints with
  | none =>
    have := h1 (by simp [CStatement.naming, hc])
    subst this
    exact h4 cur
  | some c =>
    have hlen : ¬ calculatePathLength c cur false < 0 := length_ok.2 (fun m hm => hl m (by simp [CStatement.maxLength, hc, hm]))
    have hu : updateNaming c acc = .ok acc' := by
      unfold updateNaming
      cases hn : c.naming with
      | none => rw [h1 (by simp [CStatement.naming, hc, hn])]
      | some n => exact h2 n (by simp [CStatement.naming, hc, hn])
    have hk := h3 (by simp [hc])
    simp only [hlen, if_false, hu, ok_bind, hk, if_true]
    exact h4 _

theorem restrictLoop_length {st : CStatement} {rest : List CStatement} {cur : Int} {acc fin : Acc} (h : restrictLoop (st :: rest) cur false acc = .ok (some fin)) :
    ∀ m, st.maxLength = some m → 0 ≤ m := by
  intro m hm
  simp only [restrictLoop] at h
  cases hc : st.constraints with
  | none => simp [CStatement.maxLength, hc] at hm
  | some c =>
    simp only [CStatement.maxLength, hc, Option.bind_some] at hm
    simp only [hc] at h
    split at h
    · cases h
    · rename_i hlt
      exact length_ok.1 hlt m hm

/-- The loop does not depend on the path length so far. -/
theorem restrictLoop_cur : ∀ {sts : List CStatement} {cur cur' : Int} {acc fin : Acc}, restrictLoop sts cur false acc = .ok (some fin) → restrictLoop sts cur' false acc = .ok (some fin)
  | [], _, _, _, _, h => h
  | _ :: _, _, _, _, _, h => by
    obtain ⟨c, acc1, h1, h2, h3, h4⟩ := restrictLoop_cons h
    exact restrictLoop_intro (restrictLoop_length h) h2 h3 h4 (fun _ => restrictLoop_cur h1)

theorem NoLonger.ok {new old : CStatement} (h : NoLonger new old) (hn : ∀ m, new.maxLength = some m → 0 ≤ m) : ∀ m, old.maxLength = some m → 0 ≤ m := by
  intro m hm
  obtain ⟨m', h1, h2⟩ := h m hm
  have := hn m' h1
  omega

/-- The first statement differs from the second only in that it allows no longer paths. -/
def OnlyShorter (new old : CStatement) : Prop := new.sub = old.sub ∧ new.naming = old.naming ∧ (old.constraints ≠ none → new.constraints ≠ none) ∧ NoLonger new old

theorem shorter_loop : ∀ {new old : List CStatement} {cur cur' : Int} {acc fin : Acc}, Pairwise2 OnlyShorter new old →
    restrictLoop new cur false acc = .ok (some fin) → restrictLoop old cur' false acc = .ok (some fin)
  | _, _, _, _, _, _, .nil, h => h
  | _, _, _, _, _, _, .cons ⟨e1, e2, e3, e4⟩ rest, h => by
    obtain ⟨c, acc1, h1, h2, h3, h4⟩ := restrictLoop_cons h
    exact restrictLoop_intro (e4.ok (restrictLoop_length h)) (e2 ▸ h2) (e2 ▸ h3) (fun hc => e1 ▸ h4 (e3 hc)) (fun _ => shorter_loop rest h1)

/-- C224 for path lengths: allowing no longer paths, in any statements of the chain, lets nobody in who was not let in before. -/
theorem C224_lengths_partial (new old : List CStatement) (leaf : CStatement) (hs : Pairwise2 OnlyShorter new old) (h : meetsRestrictions new leaf = .ok true) :
    meetsRestrictions old leaf = .ok true := by
  obtain ⟨acc, h1, h2⟩ := meetsRestrictions_true h
  simp only [meetsRestrictions, shorter_loop (cur' := 0) hs h1, ok_bind, h2]

/-! ### Fewer names -/

/-- Whatever passes the first passes the second. -/
def Finer (new old : Acc) : Prop := ∀ s, checkNames s new = .ok true → checkNames s old = .ok true

theorem finer_loop : ∀ {sts : List CStatement} {cur cur' : Int} {new old fin : Acc}, (∀ st ∈ sts, st.naming = none) → Finer new old →
    restrictLoop sts cur false new = .ok (some fin) → fin = new ∧ restrictLoop sts cur' false old = .ok (some old)
  | [], _, _, _, _, _, _, _, h => ⟨by cases h; rfl, rfl⟩
  | st :: sts, _, _, new, old, fin, hn, hf, h => by
    obtain ⟨c, acc1, h1, h2, h3, h4⟩ := restrictLoop_cons h
    have e := h2 (hn st (by simp))
    subst e
    have ih := fun cur' => finer_loop (cur' := cur') (fun x hx => hn x (by simp [hx])) hf h1
    exact ⟨(ih 0).1, restrictLoop_intro (restrictLoop_length h) (fun _ => rfl) (fun n hn' => by rw [hn st (by simp)] at hn'; cases hn') (fun hc => hf _ (h4 hc)) (fun c => (ih c).2)⟩

theorem anyMatch_intro {s : String} {l : List String} (hs : IsUrl s) (hl : ∀ x ∈ l, IsUrl x) (h : ∃ x ∈ l, moreSpecific s x = .ok true) : anyMatch s l = .ok true := by
  obtain ⟨b, hb⟩ := anyMatch_total hs hl
  cases b with
  | true => exact hb
  | false =>
    obtain ⟨x, hx, h⟩ := h
    rw [anyMatch_false hb x hx] at h
    cases h

theorem checkNames_split {s : String} {acc : Acc} : checkNames s acc = .ok true ↔
    (acc.excluded = [] ∨ anyMatch s acc.excluded = .ok false) ∧ (acc.permitted = [] ∨ anyMatch s acc.permitted = .ok true) := by
  unfold checkNames
  by_cases h1 : acc.excluded = []
  · by_cases h2 : acc.permitted = []
    · simp [h1, h2]
    · simp [h1, h2]
  · cases ha : anyMatch s acc.excluded with
    | error e => simp [h1, ha]
    | ok b =>
      cases b with
      | true => simp [h1, ha]
      | false =>
        by_cases h2 : acc.permitted = []
        · simp [h1, h2, ha]
        · simp [h1, h2, ha]

theorem url_of_match {a b : String} {r : Bool} (h : moreSpecific a b = .ok r) : IsUrl a ∧ IsUrl b :=
  ⟨isUrl_iff.2 (moreSpecific_ok.1 ⟨r, h⟩).1, isUrl_iff.2 (moreSpecific_ok.1 ⟨r, h⟩).2⟩

theorem refinements_url {o n : String} {ns r : List String} (h : refinements o (n :: ns) = .ok r) : IsUrl o := by
  simp only [refinements] at h
  cases hb : moreSpecific n o with
  | error e => simp [hb] at h
  | ok b => exact (url_of_match hb).2

theorem updateSpecs_url {n : String} {ns : List String} : ∀ {old r : List String}, updateSpecs (n :: ns) old = .ok r → ∀ o ∈ old, IsUrl o
  | [], _, _, _, ho => by cases ho
  | o :: os, r, h, x, hx => by
    simp only [updateSpecs] at h
    cases hr : refinements o (n :: ns) with
    | error e => simp [hr] at h
    | ok q =>
      cases hu : updateSpecs (n :: ns) os with
      | error e => simp [hr, hu] at h
      | ok r' =>
        rcases List.mem_cons.1 hx with rfl | hx
        · exact refinements_url hr
        · exact updateSpecs_url hu x hx

theorem added_finer {n : Naming} {old new : Acc} (h : addConstraints n old = .ok new) (he : n.excluded.getD [] = [] ∨ old.excluded = []) : Finer new old := by
  intro s hs
  obtain ⟨hp, hx⟩ := addConstraints_ok h
  obtain ⟨s1, s2⟩ := checkNames_split.1 hs
  refine checkNames_split.2 ⟨?_, ?_⟩
  · by_cases h0 : old.excluded = []
    · exact .inl h0
    · have hn := he.resolve_right h0
      rcases addKey_ok hx with ⟨h1, _⟩ | ⟨_, _, h1⟩ | ⟨_, h1, _⟩
      · exact absurd h1 h0
      · rw [← h1]; exact s1
      · exact absurd hn h1
  · by_cases h0 : old.permitted = []
    · exact .inl h0
    · rcases addKey_ok hp with ⟨h1, _⟩ | ⟨_, _, h1⟩ | ⟨_, h1, h2⟩
      · exact absurd h1 h0
      · rw [← h1]; exact s2
      · have hm := anyMatch_true (s2.resolve_left (updateSpecs_ne_nil h2 h0))
        obtain ⟨x, hx1, hx2⟩ := hm
        refine .inr (anyMatch_intro (url_of_match hx2).1 ?_ ?_)
        · cases hn : n.permitted.getD [] with
          | nil => exact absurd hn h1
          | cons a as => rw [hn] at h2; exact updateSpecs_url h2
        · rcases (updateSpecs_mem h2 x).1 hx1 with ⟨o, ho, _, hxo⟩ | ⟨ho, _⟩
          · exact ⟨o, ho, moreSpecific_trans hx2 hxo⟩
          · exact ⟨x, ho, hx2⟩

theorem none_excluded : ∀ {sts : List CStatement} {cur : Int} {acc fin : Acc}, (∀ st ∈ sts, st.excluded = []) → acc.excluded = [] → restrictLoop sts cur false acc = .ok (some fin) → fin.excluded = []
  | [], _, _, _, _, h0, h => by cases h; exact h0
  | st :: sts, _, acc, _, he, h0, h => by
    obtain ⟨c, acc1, h1, h2, h3, _⟩ := restrictLoop_cons h
    refine none_excluded (fun x hx => he x (by simp [hx])) ?_ h1
    have hst := he st (by simp)
    rcases acc_excluded h2 h3 with ⟨_, e⟩ | ⟨e, _, _⟩ | ⟨e, _, _⟩
    · rw [e]; exact hst
    · exact absurd h0 e
    · exact absurd h0 e

theorem restrictLoop_join : ∀ {pre rest : List CStatement} {cur : Int} {acc mid fin : Acc}, restrictLoop pre cur false acc = .ok (some mid) →
    (∀ cur, restrictLoop rest cur false mid = .ok (some fin)) → restrictLoop (pre ++ rest) cur false acc = .ok (some fin)
  | [], _, _, _, _, _, h, h' => by cases h; exact h' _
  | _ :: _, _, _, _, _, _, h, h' => by
    obtain ⟨c, acc1, h1, h2, h3, h4⟩ := restrictLoop_cons h
    exact restrictLoop_intro (restrictLoop_length h) h2 h3 h4 (fun _ => restrictLoop_join (restrictLoop_cur h1) h')

/-- C224 for names: an authority that begins to constrain names, below which nobody else does, lets nobody in who was not let in before; nor does allowing a shorter path at the same time.
It may exclude names as long as nobody above it does. What the authorities above it say does not matter otherwise. -/
theorem C224_names_partial (pre post : List CStatement) (new old leaf : CStatement) (hsub : new.sub = old.sub) (hold : old.naming = none) (hc : new.constraints ≠ none) (hlen : NoLonger new old)
    (hpost : ∀ st ∈ post, st.naming = none) (hex : new.excluded = [] ∨ ∀ st ∈ pre, st.excluded = [])
    (h : meetsRestrictions (pre ++ new :: post) leaf = .ok true) : meetsRestrictions (pre ++ old :: post) leaf = .ok true := by
  obtain ⟨fin, h1, h2⟩ := meetsRestrictions_true h
  obtain ⟨cur, mid, hpre, hrest⟩ := restrictLoop_append h1
  obtain ⟨cur2, acc, h3, h4, h5, h6⟩ := restrictLoop_cons hrest
  have hf : Finer acc mid := by
    cases hn : new.naming with
    | none => rw [h4 hn]; exact fun _ h => h
    | some n =>
      refine added_finer (h5 n hn) (hex.imp (fun e => ?_) (fun e => none_excluded e rfl hpre))
      simpa [CStatement.excluded, hn] using e
  have hp := fun cur' => finer_loop (cur' := cur') hpost hf h3
  have hfin := (hp 0).1
  subst hfin
  have hold' : restrictLoop (pre ++ old :: post) 0 false ⟨[], []⟩ = .ok (some mid) :=
    restrictLoop_join hpre (fun _ => restrictLoop_intro (hlen.ok (restrictLoop_length hrest)) (fun _ => rfl) (fun n hn => by rw [hold] at hn; cases hn)
      (fun _ => hsub ▸ hf _ (h6 hc)) (fun c => (hp c).2))
  simp only [meetsRestrictions, hold', ok_bind, hf _ h2]

/-! ### Wrong otherwise -/

namespace Ex224

theorem url {s : String} (hs : (labelsOf s).isSome = true) : IsUrl s := isUrl_iff.2 (Option.isSome_iff_exists.1 hs)

theorem urls {st : CStatement} (h1 : (labelsOf st.sub).isSome = true) (h2 : ∀ x ∈ st.permitted, (labelsOf x).isSome = true) (h3 : ∀ x ∈ st.excluded, (labelsOf x).isSome = true) : UrlNames st :=
  ⟨url h1, fun x hx => url (h2 x hx), fun x hx => url (h3 x hx)⟩

/-- A statement with both lists. -/
def says (sub : String) (p e : List String) : CStatement := ⟨sub, some ⟨none, some ⟨some p, some e⟩⟩⟩

def leaf : CStatement := ⟨"https://b.example.com", none⟩

/-- The anchor excludes a domain. -/
def anchor : CStatement := says "https://ia.example.org" [] ["https://example.com"]

/-- The authority below says nothing, or excludes one host of that domain. -/
def silent : CStatement := says "https://b.example.com" [] []
def speaks : CStatement := says "https://b.example.com" [] ["https://a.example.com"]

/-- The anchor permits a domain, or one department of it. -/
def wide : CStatement := says "https://ia.b.example.com" ["https://example.com"] []
def narrow : CStatement := says "https://ia.b.example.com" ["https://b.example.com"] []

/-- Begins to permit some names only; the path length is given too. -/
def begins : CStatement := ⟨"https://b.example.com", some ⟨some 1, some ⟨some ["https://b.example.com"], some []⟩⟩⟩
def before : CStatement := ⟨"https://b.example.com", some ⟨some 3, none⟩⟩

/-- The partial theorems are about something: names are permitted above and excluded; and it is possible to be refused afterwards. -/
example : meetsRestrictions ([says "https://ia.b.example.com" ["https://example.com"] ["https://x.example.com"]] ++ begins :: []) leaf = .ok true ∧
    meetsRestrictions ([wide] ++ ⟨"https://b.example.com", some ⟨some 1, some ⟨some ["https://c.example.com"], some []⟩⟩⟩ :: []) leaf = .ok false ∧
    meetsRestrictions ([wide] ++ before :: []) leaf = .ok true ∧ NoLonger begins before := by
  refine ⟨by decide +kernel, by decide +kernel, by decide +kernel, ?_⟩
  intro m hm
  cases hm
  exact ⟨1, rfl, by decide⟩

example : Pairwise2 OnlyShorter [begins] [{ begins with constraints := some ⟨some 2, some ⟨some ["https://b.example.com"], some []⟩⟩ }] ∧ meetsRestrictions [begins] leaf = .ok true := by
  refine ⟨.cons ⟨rfl, rfl, (fun _ h => by cases h), ?_⟩ .nil, by decide +kernel⟩
  intro m hm
  cases hm
  exact ⟨1, rfl, by decide⟩

end Ex224

open Ex224 in
/-- An authority that excludes one more host lets in the other hosts of a domain its superior excludes. -/
theorem C224_excluded_violation : ¬ C224_full ∧ Stricter speaks silent ∧ meetsRestrictions [anchor, silent] leaf = .ok false ∧ meetsRestrictions [anchor, speaks] leaf = .ok true := by
  have hs : Stricter speaks silent := ⟨rfl, (fun m hm => by cases hm), fun s _ => ⟨.inl rfl, fun e he => by cases he⟩⟩
  refine ⟨?_, hs, by decide +kernel, by decide +kernel⟩
  intro h
  have := h [anchor, speaks] [anchor, silent] leaf (.cons ⟨rfl, fun m hm => ⟨m, hm, Int.le_refl m⟩, fun _ h => h⟩ (.cons hs .nil)) (by
    intro st hst
    simp only [List.cons_append, List.nil_append, List.mem_cons, List.not_mem_nil, or_false] at hst
    rcases hst with rfl | rfl | rfl | rfl <;> exact urls (by decide +kernel) (by decide +kernel) (by decide +kernel)) (urls (by decide +kernel) (by decide +kernel) (by decide +kernel)) (by decide +kernel)
  exact absurd this (by decide +kernel)

open Ex224 in
/-- A trust anchor that permits fewer names lets in what it refused before, because nothing an authority below permits is left. -/
theorem C224_permitted_violation : ¬ C224_full ∧ Stricter narrow wide ∧ meetsRestrictions [wide, says "https://b.example.com" ["https://a.example.com"] []] leaf = .ok false ∧
    meetsRestrictions [narrow, says "https://b.example.com" ["https://a.example.com"] []] leaf = .ok true := by
  have hs : Stricter narrow wide := by
    refine ⟨rfl, (fun m hm => by cases hm), fun s h => ⟨.inr ⟨"https://example.com", by decide, ?_⟩, fun e he => by cases he⟩⟩
    rcases h.1 with h | ⟨p, hp, h⟩
    · cases h
    · have hp' : p = "https://b.example.com" := by simpa [narrow, says, CStatement.permitted, CStatement.naming] using hp
      subst hp'
      exact moreSpecific_trans h (by decide +kernel)
  refine ⟨?_, hs, by decide +kernel, by decide +kernel⟩
  intro h
  have := h [narrow, says "https://b.example.com" ["https://a.example.com"] []] [wide, says "https://b.example.com" ["https://a.example.com"] []] leaf
    (.cons hs (.cons ⟨rfl, fun m hm => ⟨m, hm, Int.le_refl m⟩, fun _ h => h⟩ .nil)) (by
    intro st hst
    simp only [List.cons_append, List.nil_append, List.mem_cons, List.not_mem_nil, or_false] at hst
    rcases hst with rfl | rfl | rfl | rfl <;> exact urls (by decide +kernel) (by decide +kernel) (by decide +kernel)) (urls (by decide +kernel) (by decide +kernel) (by decide +kernel)) (by decide +kernel)
  exact absurd this (by decide +kernel)

end Fed.Constraints
