import Verif.Setup.ScriptsProps
import Verif.TrustMarks.LifeProps
import Verif.Chains.Upheld
/-
Model of /repo/script/tree.py, which shows the entities of a federation and looks for their trust chains, and property C186: what it shows.
-/
namespace Fed.Setup
open Fed Verify Chains

/-- What the script is answered. `configuration e`: the verified configuration of an entity (tree.py 10-15); `list ep`: what a list endpoint answers without criteria (tree.py 28). Simplifications:
the answers do not change while the script runs; an endpoint that lists nobody answers the empty list. -/
structure Net where
  configuration : String → Except PyErr Payload
  list : Val → Except PyErr (List String)

/-- What the script has: the dict it shows, and whom it complained about (superior, entity). Simplification: complaints before an exception are not kept. -/
structure Shown where
  tree : Dict Val := []
  complaints : List (String × String) := []
deriving DecidableEq, Repr

/-- `for sub in _list_response: res.update(do_subordinates(federation_entity, sub, entity_id))` (tree.py 30-31). -/
def mergeAll (f : String → Except PyErr Shown) : List String → Shown → Except PyErr Shown
  | [], acc => .ok acc
  | e :: es, acc => do
    let r ← f e
    mergeAll f es ⟨acc.tree.update r.tree, acc.complaints ++ r.complaints⟩

/-- The check of the hints (tree.py 20-22): KeyError without hints. -/
def checkHints (ec : Payload) (e superior : String) : Except PyErr (List (String × String)) :=
  if superior ≠ "" then
    match ec.hints with
    | none => .error .keyError
    | some hs => .ok (if superior ∈ hs then [] else [(superior, e)])
  else .ok []

/-- `entity_configuration["metadata"]["federation_entity"]` (tree.py 24). -/
def federationEntity (ec : Payload) : Except PyErr (Dict Val) :=
  match ec.metadata with
  | none => .error .keyError
  | some md => Dict.get md "federation_entity"

/-- `do_subordinates` (tree.py 18-34); `fuel` bounds the depth of the recursion. -/
def doSubordinates (N : Net) : Nat → String → String → Except PyErr Shown
  | 0, _, _ => .error .outOfFuel
  | fuel + 1, e, superior => do
    let ec ← N.configuration e
    let complaints ← checkHints ec e superior
    let fe ← federationEntity ec
    match fe.get? "federation_list_endpoint" with
    | none => .ok ⟨[(e, .obj [])], complaints⟩
    | some ep => do
      let subs ← N.list ep
      let r ← mergeAll (fun sub => doSubordinates N fuel sub e) subs {}
      .ok ⟨r.tree, complaints ++ r.complaints⟩

/-- What is printed about an entity (tree.py 39-45): no chain at all, none that ends in the root, or that there is one. -/
inductive Verdict
  | noChain
  | noneToRoot
  | found
deriving DecidableEq, Repr

/-- `find_trust_chain` (tree.py 36-48). Simplification: the subordinates of an entry are not looked at; what `do_subordinates` makes has none (`C186_leaves_partial`). -/
def findTrustChain (V : Env) (root : String) : State → Dict Val → Except PyErr (List (String × Verdict)) × State
  | st, [] => (.ok [], st)
  | st, (e, _) :: rest =>
    match getVerified V st e with
    | (.error x, st) => (.error x, st)
    | (.ok tcs, st) =>
      let v := if tcs.isEmpty then Verdict.noChain else if tcs.any (fun tc => decide (tc.anchor = root)) then .found else .noneToRoot
      match findTrustChain V root st rest with
      | (.error x, st) => (.error x, st)
      | (.ok vs, st) => (.ok ((e, v) :: vs), st)

/-- What the script says about an entity and what was found for it agree. -/
def Verdict.Of (root : String) (tcs : List TrustChain) : Verdict → Prop
  | .noChain => tcs = []
  | .noneToRoot => tcs ≠ [] ∧ ∀ tc ∈ tcs, tc.anchor ≠ root
  | .found => ∃ tc ∈ tcs, tc.anchor = root

/-- C186, in any federation: everybody that is shown gets one verdict, in the same order; and it is the right one for the verified
trust chains that are found for the entity when its turn comes. -/
theorem C186_verdicts (V : Env) (root : String) : ∀ (d : Dict Val) (st : State) (vs : List (String × Verdict)),
    (findTrustChain V root st d).1 = .ok vs → vs.map (·.1) = d.keys ∧
      ∀ p ∈ vs, ∃ (st' : State) (tcs : List TrustChain), (getVerified V st' p.1).1 = .ok tcs ∧ p.2.Of root tcs
  | [], st, vs, h => by cases h; exact ⟨rfl, by simp⟩
  | (e, x) :: d, st, vs, h => by
      unfold findTrustChain at h
      cases hg : getVerified V st e with
      | mk r st1 =>
        rw [hg] at h
        cases r with
        | error y => cases h
        | ok tcs =>
          simp only at h
          have ih := C186_verdicts V root d st1
          generalize findTrustChain V root st1 d = r at h ih
          obtain ⟨r, st2⟩ := r
          cases r with
          | error y => cases h
          | ok vs' =>
            obtain ⟨h1, h2⟩ := ih vs' rfl
            cases h
            refine ⟨by simp [Dict.keys, h1], ?_⟩
            intro p hp
            rcases List.mem_cons.1 hp with rfl | hp
            · refine ⟨st, tcs, by rw [hg], ?_⟩
              by_cases hn : tcs.isEmpty = true
              · simp only [hn, if_true]; exact List.isEmpty_iff.1 hn
              · rw [if_neg hn]
                have hne : tcs ≠ [] := fun hc => hn (List.isEmpty_iff.2 hc)
                by_cases ha : (tcs.any fun tc => decide (tc.anchor = root)) = true
                · rw [if_pos ha]
                  obtain ⟨tc, h1, h2⟩ := List.any_eq_true.1 ha
                  exact ⟨tc, h1, of_decide_eq_true h2⟩
                · rw [if_neg ha]
                  refine ⟨hne, fun tc ht hc => ha (List.any_eq_true.2 ⟨tc, ht, by simpa using hc⟩)⟩
            · exact h2 p hp

/-! ### What is below an entity -/

/-- The entity's configuration is verified and says this about it as a federation entity. -/
def Says (N : Net) (e : String) (ec : Payload) (fe : Dict Val) : Prop := N.configuration e = .ok ec ∧ ∃ md, ec.metadata = some md ∧ Dict.get? md "federation_entity" = some fe

/-- `a` lists `e`. -/
def Lists (N : Net) (a e : String) : Prop := ∃ ec fe ep subs, Says N a ec fe ∧ fe.get? "federation_list_endpoint" = some ep ∧ N.list ep = .ok subs ∧ e ∈ subs

/-- `e` is `a`, or listed by somebody below `a`. -/
inductive Under (N : Net) (a : String) : String → Prop
  | refl : Under N a a
  | step {b e : String} : Under N a b → Lists N b e → Under N a e

/-- An entity without subordinates: it publishes no list endpoint. -/
def Leaf (N : Net) (e : String) : Prop := ∃ ec fe, Says N e ec fe ∧ fe.get? "federation_list_endpoint" = none

theorem Under.head {N : Net} {a b e : String} (h : Lists N a b) (hb : Under N b e) : Under N a e := by
  induction hb with
  | refl => exact .step .refl h
  | step _ h2 ih => exact .step ih h2

theorem Under.cases_head {N : Net} {a e : String} (h : Under N a e) : e = a ∨ ∃ b, Lists N a b ∧ Under N b e := by
  induction h with
  | refl => exact .inl rfl
  | step h1 h2 ih =>
    rcases ih with rfl | ⟨b, h3, h4⟩
    · exact .inr ⟨_, h2, .refl⟩
    · exact .inr ⟨b, h3, .step h4 h2⟩

theorem mergeAll_ok {f : String → Except PyErr Shown} : ∀ {es : List String} {acc r : Shown}, mergeAll f es acc = .ok r →
    (∀ e ∈ es, ∃ x, f e = .ok x) ∧
    (∀ k, (r.tree.get? k = acc.tree.get? k ∧ ∀ e ∈ es, ∀ x, f e = .ok x → x.tree.get? k = none) ∨ ∃ e ∈ es, ∃ x v, f e = .ok x ∧ x.tree.get? k = some v ∧ r.tree.get? k = some v) ∧
    ∀ c, c ∈ r.complaints ↔ c ∈ acc.complaints ∨ ∃ e ∈ es, ∃ x, f e = .ok x ∧ c ∈ x.complaints
  | [], acc, r, h => by
    cases h
    refine ⟨fun e he => (by cases he), fun k => .inl ⟨rfl, fun e he => (by cases he)⟩, fun c => ?_⟩
    simp
  | a :: es, acc, r, h => by
    simp only [mergeAll] at h
    cases ha : f a with
    | error x => rw [ha] at h; cases h
    | ok x =>
      rw [ha, ok_bind] at h
      obtain ⟨h1, h2, h3⟩ := mergeAll_ok h
      refine ⟨?_, fun k => ?_, fun c => ?_⟩
      · intro e he
        rcases List.mem_cons.1 he with rfl | he
        · exact ⟨x, ha⟩
        · exact h1 e he
      · rcases h2 k with ⟨k1, k2⟩ | ⟨e, he, y, v, k1, k2, k3⟩
        · simp only [Dict.get?_update] at k1
          cases hx : x.tree.get? k with
          | none =>
            rw [hx] at k1
            refine .inl ⟨k1, fun e he y hy => ?_⟩
            rcases List.mem_cons.1 he with rfl | he
            · rw [ha] at hy; cases hy; exact hx
            · exact k2 e he y hy
          | some v =>
            rw [hx] at k1
            exact .inr ⟨a, List.mem_cons_self .., x, v, ha, hx, k1⟩
        · exact .inr ⟨e, List.mem_cons_of_mem _ he, y, v, k1, k2, k3⟩
      · rw [h3]
        constructor
        · rintro (hc | ⟨e, he, y, hy, hc⟩)
          · rcases List.mem_append.1 hc with hc | hc
            · exact .inl hc
            · exact .inr ⟨a, List.mem_cons_self .., x, ha, hc⟩
          · exact .inr ⟨e, List.mem_cons_of_mem _ he, y, hy, hc⟩
        · rintro (hc | ⟨e, he, y, hy, hc⟩)
          · exact .inl (List.mem_append.2 (.inl hc))
          · rcases List.mem_cons.1 he with rfl | he
            · rw [ha] at hy; cases hy
              exact .inl (List.mem_append.2 (.inr hc))
            · exact .inr ⟨e, he, y, hy, hc⟩

/-- One call, taken apart. -/
theorem doSubordinates_succ {N : Net} {n : Nat} {e superior : String} {r : Shown} (h : doSubordinates N (n + 1) e superior = .ok r) :
    ∃ ec fe cs, Says N e ec fe ∧ checkHints ec e superior = .ok cs ∧
      ((fe.get? "federation_list_endpoint" = none ∧ r = ⟨[(e, .obj [])], cs⟩) ∨
        ∃ ep subs r', fe.get? "federation_list_endpoint" = some ep ∧ N.list ep = .ok subs ∧ mergeAll (fun sub => doSubordinates N n sub e) subs {} = .ok r' ∧ r = ⟨r'.tree, cs ++ r'.complaints⟩) := by
  simp only [doSubordinates] at h
  cases h1 : N.configuration e with
  | error x => rw [h1] at h; cases h
  | ok ec =>
    rw [h1, ok_bind] at h
    cases h2 : checkHints ec e superior with
    | error x => rw [h2] at h; cases h
    | ok cs =>
      rw [h2, ok_bind] at h
      cases h3 : federationEntity ec with
      | error x => rw [h3] at h; cases h
      | ok fe =>
        rw [h3, ok_bind] at h
        have hs : Says N e ec fe := by
          refine ⟨h1, ?_⟩
          unfold federationEntity at h3
          split at h3
          · cases h3
          · rename_i md hmd
            refine ⟨md, hmd, ?_⟩
            unfold Dict.get at h3
            split at h3
            · cases h3; assumption
            · cases h3
        refine ⟨ec, fe, cs, hs, h2, ?_⟩
        cases h4 : fe.get? "federation_list_endpoint" with
        | none =>
          rw [h4] at h
          cases h
          exact .inl ⟨rfl, rfl⟩
        | some ep =>
          rw [h4] at h
          simp only at h
          cases h5 : N.list ep with
          | error x => rw [h5] at h; cases h
          | ok subs =>
            rw [h5, ok_bind] at h
            cases h6 : mergeAll (fun sub => doSubordinates N n sub e) subs {} with
            | error x => rw [h6] at h; cases h
            | ok r' =>
              rw [h6, ok_bind] at h
              cases h
              exact .inr ⟨ep, subs, r', rfl, h5, h6, rfl⟩

theorem Says.unique {N : Net} {e : String} {ec ec' : Payload} {fe fe' : Dict Val} (h : Says N e ec fe) (h' : Says N e ec' fe') : ec = ec' ∧ fe = fe' := by
  obtain ⟨h1, md, h2, h3⟩ := h
  obtain ⟨k1, md', k2, k3⟩ := h'
  rw [h1] at k1; cases k1
  rw [h2] at k2; cases k2
  rw [h3] at k3; cases k3
  exact ⟨rfl, rfl⟩

/-- C186: what is shown are exactly the entities below the root that have no subordinates, all of them at the top. Missing, and false: the entities in between, and who is below whom. -/
theorem C186_leaves_partial (N : Net) : ∀ (fuel : Nat) (root superior : String) (r : Shown), doSubordinates N fuel root superior = .ok r →
    (∀ e v, r.tree.get? e = some v → v = .obj []) ∧ ∀ e, e ∈ r.tree.keys ↔ Under N root e ∧ Leaf N e
  | 0, _, _, _, h => by cases h
  | n + 1, root, superior, r, h => by
    obtain ⟨ec, fe, cs, h1, -, ⟨h2, rfl⟩ | ⟨ep, subs, r', h2, h3, h4, rfl⟩⟩ := doSubordinates_succ h
    · refine ⟨?_, fun e => ?_⟩
      · intro e v hv
        rw [Dict.get?_cons] at hv
        split at hv
        · cases hv; rfl
        · cases hv
      · simp only [Dict.keys, List.map_cons, List.map_nil, List.mem_singleton]
        constructor
        · rintro rfl; exact ⟨.refl, ec, fe, h1, h2⟩
        · rintro ⟨hu, -⟩
          rcases hu.cases_head with rfl | ⟨b, ⟨ec', fe', ep, subs, k1, k2, -, -⟩, -⟩
          · rfl
          · obtain ⟨rfl, rfl⟩ := h1.unique k1
            rw [h2] at k2; cases k2
    · obtain ⟨m1, m2, -⟩ := mergeAll_ok h4
      refine ⟨?_, fun e => ?_⟩
      · intro e v hv
        rcases m2 e with ⟨k1, -⟩ | ⟨b, hb, x, v', k1, k2, k3⟩
        · simp only at hv; rw [k1] at hv; cases hv
        · simp only at hv; rw [k3] at hv; cases hv
          exact (C186_leaves_partial N n b root x k1).1 e _ k2
      · simp only
        constructor
        · intro he
          obtain ⟨v, hv⟩ := (Dict.mem_keys_iff_exists _ _).1 he
          rcases m2 e with ⟨k1, -⟩ | ⟨b, hb, x, v', k1, k2, k3⟩
          · rw [k1] at hv; cases hv
          · obtain ⟨hu, hl⟩ := ((C186_leaves_partial N n b root x k1).2 e).1 ((Dict.mem_keys_iff_exists _ _).2 ⟨v', k2⟩)
            exact ⟨.head ⟨ec, fe, ep, subs, h1, h2, h3, hb⟩ hu, hl⟩
        · rintro ⟨hu, hl⟩
          rcases hu.cases_head with rfl | ⟨b, ⟨ec', fe', ep', subs', k1, k2, k3, k4⟩, hb⟩
          · obtain ⟨ec', fe', k1, k2⟩ := hl
            obtain ⟨rfl, rfl⟩ := h1.unique k1
            rw [h2] at k2; cases k2
          · obtain ⟨rfl, rfl⟩ := h1.unique k1
            rw [h2] at k2; cases k2
            rw [h3] at k3; cases k3
            obtain ⟨x, hx⟩ := m1 b k4
            obtain ⟨v, hv⟩ := (Dict.mem_keys_iff_exists _ _).1 (((C186_leaves_partial N n b root x hx).2 e).2 ⟨hb, hl⟩)
            rcases m2 e with ⟨-, k⟩ | ⟨b', hb', x', v', g1, g2, g3⟩
            · rw [k b k4 x hx] at hv; cases hv
            · exact (Dict.mem_keys_iff_exists _ _).2 ⟨v', g3⟩

/-- C186: the script complains of exactly those who are listed by somebody they do not name as authority. -/
theorem C186_complaints (N : Net) (hid : ∀ ec, N.configuration "" ≠ .ok ec) : ∀ (fuel : Nat) (root superior : String) (r : Shown), doSubordinates N fuel root superior = .ok r → ∀ a e,
    (a, e) ∈ r.complaints ↔ ∃ ec hs, N.configuration e = .ok ec ∧ ec.hints = some hs ∧ a ∉ hs ∧ ((a = superior ∧ a ≠ "" ∧ e = root) ∨ (Under N root a ∧ Lists N a e))
  | 0, _, _, _, h => by cases h
  | n + 1, root, superior, r, h => by
    intro a e
    obtain ⟨ec, fe, cs, h1, hcs, hr⟩ := doSubordinates_succ h
    have hroot : root ≠ "" := by rintro rfl; exact hid _ h1.1
    have own : (a, e) ∈ cs ↔ ∃ ec hs, N.configuration e = .ok ec ∧ ec.hints = some hs ∧ a ∉ hs ∧ a = superior ∧ a ≠ "" ∧ e = root := by
      unfold checkHints at hcs
      by_cases hsup : superior ≠ ""
      · rw [if_pos hsup] at hcs
        cases hh : ec.hints with
        | none => rw [hh] at hcs; cases hcs
        | some hs =>
          rw [hh] at hcs
          simp only at hcs
          cases hcs
          by_cases hin : superior ∈ hs
          · rw [if_pos hin]
            constructor
            · intro hc; cases hc
            · rintro ⟨ec', hs', k1, k2, k3, rfl, -, rfl⟩
              rw [h1.1] at k1; cases k1
              rw [hh] at k2; cases k2
              exact absurd hin k3
          · rw [if_neg hin]
            simp only [List.mem_singleton, Prod.mk.injEq]
            constructor
            · rintro ⟨rfl, rfl⟩
              exact ⟨ec, hs, h1.1, hh, hin, rfl, hsup, rfl⟩
            · rintro ⟨-, -, -, -, -, rfl, -, rfl⟩
              exact ⟨rfl, rfl⟩
      · rw [if_neg hsup] at hcs
        cases hcs
        constructor
        · intro hc; cases hc
        · rintro ⟨-, -, -, -, -, rfl, k, -⟩
          exact absurd k hsup
    rcases hr with ⟨h2, rfl⟩ | ⟨ep, subs, r', h2, h3, h4, rfl⟩
    · rw [own]
      constructor
      · rintro ⟨ec', hs, k1, k2, k3, k4⟩
        exact ⟨ec', hs, k1, k2, k3, .inl k4⟩
      · rintro ⟨ec', hs, k1, k2, k3, k4 | ⟨k4, k5⟩⟩
        · exact ⟨ec', hs, k1, k2, k3, k4⟩
        · exfalso
          have nolist : ∀ b, ¬ Lists N root b := by
            rintro b ⟨ec', fe', ep, subs, k1, k2, -, -⟩
            obtain ⟨rfl, rfl⟩ := h1.unique k1
            rw [h2] at k2; cases k2
          rcases k4.cases_head with rfl | ⟨b, k6, -⟩
          · exact nolist _ k5
          · exact nolist _ k6
    · obtain ⟨m1, -, m3⟩ := mergeAll_ok h4
      simp only [List.mem_append]
      rw [own, m3]
      simp only [List.not_mem_nil, false_or]
      constructor
      · rintro (⟨ec', hs, k1, k2, k3, k4⟩ | ⟨b, hb, x, hx, hc⟩)
        · exact ⟨ec', hs, k1, k2, k3, .inl k4⟩
        · obtain ⟨ec', hs, k1, k2, k3, k4⟩ := (C186_complaints N hid n b root x hx a e).1 hc
          have hl : Lists N root b := ⟨ec, fe, ep, subs, h1, h2, h3, hb⟩
          refine ⟨ec', hs, k1, k2, k3, .inr ?_⟩
          rcases k4 with ⟨rfl, -, rfl⟩ | ⟨k4, k5⟩
          · exact ⟨.refl, hl⟩
          · exact ⟨.head hl k4, k5⟩
      · rintro ⟨ec', hs, k1, k2, k3, k4 | ⟨k4, k5⟩⟩
        · exact .inl ⟨ec', hs, k1, k2, k3, k4⟩
        · right
          have lists : ∀ b, Lists N root b → b ∈ subs := by
            rintro b ⟨ec', fe', ep', subs', k1, k2, k3, k4⟩
            obtain ⟨rfl, rfl⟩ := h1.unique k1
            rw [h2] at k2; cases k2
            rw [h3] at k3; cases k3
            exact k4
          rcases k4.cases_head with rfl | ⟨b, k6, k7⟩
          · obtain ⟨x, hx⟩ := m1 e (lists e k5)
            exact ⟨e, lists e k5, x, hx, (C186_complaints N hid n e a x hx a e).2 ⟨ec', hs, k1, k2, k3, .inl ⟨rfl, hroot, rfl⟩⟩⟩
          · obtain ⟨x, hx⟩ := m1 b (lists b k6)
            exact ⟨b, lists b k6, x, hx, (C186_complaints N hid n b root x hx a e).2 ⟨ec', hs, k1, k2, k3, .inr ⟨k7, k5⟩⟩⟩

/-! ### Coming to an end -/

theorem mergeAll_total {f : String → Except PyErr Shown} : ∀ {es : List String} {acc : Shown}, (∀ e ∈ es, ∃ x, f e = .ok x) → ∃ r, mergeAll f es acc = .ok r
  | [], acc, _ => ⟨acc, rfl⟩
  | a :: es, acc, h => by
    obtain ⟨x, hx⟩ := h a (List.mem_cons_self ..)
    simp only [mergeAll, hx, ok_bind]
    exact mergeAll_total fun e he => h e (List.mem_cons_of_mem _ he)

theorem mergeAll_fails {f : String → Except PyErr Shown} {x : PyErr} {e : String} {es : List String} {acc : Shown} (h : f e = .error x) : mergeAll f (e :: es) acc = .error x := by
  simp only [mergeAll, h]
  rfl

/-- Everybody below the root can be asked: configurations are verified and have metadata as a federation entity, who is listed names authorities, list endpoints answer. -/
def Answers (N : Net) (root : String) : Prop := ∀ e, Under N root e → ∃ ec fe, Says N e ec fe ∧ (e ≠ root → ec.hints.isSome = true) ∧
  ∀ ep, fe.get? "federation_list_endpoint" = some ep → ∃ subs, N.list ep = .ok subs

theorem checkHints_total {ec : Payload} {e superior : String} (h : superior ≠ "" → ec.hints.isSome = true) : ∃ cs, checkHints ec e superior = .ok cs := by
  unfold checkHints
  by_cases hs : superior ≠ ""
  · rw [if_pos hs]
    obtain ⟨hs, hh⟩ := Option.isSome_iff_exists.1 (h hs)
    rw [hh]
    exact ⟨_, rfl⟩
  · rw [if_neg hs]
    exact ⟨_, rfl⟩

theorem Says.federationEntity {N : Net} {e : String} {ec : Payload} {fe : Dict Val} (h : Says N e ec fe) : Setup.federationEntity ec = .ok fe := by
  obtain ⟨-, md, h2, h3⟩ := h
  unfold Setup.federationEntity Dict.get
  rw [h2]
  simp only [h3]

/-- C186: the script comes to an end if who is listed is always further down. Missing, and false: entities that list each other. -/
theorem C186_ends_partial (N : Net) (root : String) (hN : Answers N root) (rank : String → Nat) (hr : ∀ a e, Under N root a → Lists N a e → rank e < rank a) :
    ∀ (fuel : Nat) (e superior : String), Under N root e → (superior = "" ∨ e ≠ root) → rank e < fuel → ∃ r, doSubordinates N fuel e superior = .ok r
  | 0, _, _, _, _, h => by omega
  | n + 1, e, superior, hu, hs, h => by
    obtain ⟨ec, fe, h1, h2, h3⟩ := hN e hu
    obtain ⟨cs, hcs⟩ := checkHints_total (ec := ec) (e := e) (superior := superior) (fun hn => by
      rcases hs with hs | hs
      · exact absurd hs hn
      · exact h2 hs)
    simp only [doSubordinates, h1.1, ok_bind, hcs, h1.federationEntity]
    cases hep : fe.get? "federation_list_endpoint" with
    | none => exact ⟨_, rfl⟩
    | some ep =>
      obtain ⟨subs, hsubs⟩ := h3 ep hep
      simp only [hsubs, ok_bind]
      obtain ⟨r, hr'⟩ := mergeAll_total (f := fun sub => doSubordinates N n sub e) (es := subs) (acc := {}) (fun b hb => by
        have hl : Lists N e b := ⟨ec, fe, ep, subs, h1, hep, hsubs, hb⟩
        have hrank := hr e b hu hl
        refine C186_ends_partial N root hN rank hr n b e (.step hu hl) (.inr ?_) (by omega)
        rintro rfl
        -- the root is not below anybody below it
        have up : ∀ x, Under N b x → rank x ≤ rank b := by
          intro x hx
          induction hx with
          | refl => exact Nat.le_refl _
          | step h4 h5 ih => exact Nat.le_of_lt (Nat.lt_of_lt_of_le (hr _ _ h4 h5) ih)
        have := up e hu
        omega)
      rw [hr']
      exact ⟨_, rfl⟩

/-- Shown somewhere in the tree. -/
inductive Shows : Dict Val → String → Prop
  | here {d : Dict Val} {e : String} : e ∈ d.keys → Shows d e
  | deeper {d d' : Dict Val} {k e : String} : d.get? k = some (.obj d') → Shows d' e → Shows d e

/-- C186 in full: if everybody below the root can be asked the script comes to an end, and shows everybody below the root. -/
def C186_full : Prop := ∀ (N : Net) (root : String), Answers N root → ∃ fuel r, doSubordinates N fuel root "" = .ok r ∧ ∀ e, Under N root e → e ≠ root → Shows r.tree e

theorem Shows.flat {d : Dict Val} {e : String} (hd : ∀ k v, d.get? k = some v → v = .obj []) (h : Shows d e) : e ∈ d.keys := by
  cases h with
  | here h => exact h
  | deeper h1 h2 =>
    cases hd _ _ h1
    cases h2 with
    | here h => cases h
    | deeper h => cases h

/-- C186: nobody who publishes a list endpoint is shown, be it the root itself or an intermediate. -/
theorem C186_intermediates_missing (N : Net) (fuel : Nat) (root superior : String) (r : Shown) (h : doSubordinates N fuel root superior = .ok r) (e : String) (ec : Payload) (fe : Dict Val)
    (he : Says N e ec fe) (hl : (fe.get? "federation_list_endpoint").isSome = true) : ¬ Shows r.tree e := by
  intro hs
  obtain ⟨h1, h2⟩ := C186_leaves_partial N fuel root superior r h
  obtain ⟨-, ec', fe', h3, h4⟩ := (h2 e).1 (hs.flat h1)
  obtain ⟨-, rfl⟩ := he.unique h3
  rw [h4] at hl
  cases hl

namespace Ex
/-- A payload with hints and, if given, a list endpoint. -/
def conf186 (hints : Option (List String)) (ep : Option String) : Payload :=
  { iss := "", sub := "", hints := hints, metadata := some [("federation_entity", match ep with | some x => [("federation_list_endpoint", .str x)] | none => [("organization_name", .str "O")])] }
/-- `ta` lists `im` and `op`, `im` lists `leaf`; `op` names another authority. -/
def net186 : Net where
  configuration
    | "ta" => .ok (conf186 none (some "ta/list"))
    | "im" => .ok (conf186 (some ["ta"]) (some "im/list"))
    | "leaf" => .ok (conf186 (some ["im"]) none)
    | "op" => .ok (conf186 (some ["other"]) none)
    | _ => .error .missingPage
  list
    | .str "ta/list" => .ok ["im", "op"]
    | .str "im/list" => .ok ["leaf"]
    | _ => .error .connectionError

example : doSubordinates net186 3 "ta" "" = .ok ⟨[("leaf", .obj []), ("op", .obj [])], [("ta", "op")]⟩ := by decide +kernel

theorem says186 {e : String} {ec : Payload} {fe : Dict Val} (h : Says net186 e ec fe) :
    (e = "ta" ∧ ec = conf186 none (some "ta/list") ∧ fe = [("federation_list_endpoint", .str "ta/list")]) ∨
    (e = "im" ∧ ec = conf186 (some ["ta"]) (some "im/list") ∧ fe = [("federation_list_endpoint", .str "im/list")]) ∨
    (e = "leaf" ∧ ec = conf186 (some ["im"]) none ∧ fe = [("organization_name", .str "O")]) ∨
    (e = "op" ∧ ec = conf186 (some ["other"]) none ∧ fe = [("organization_name", .str "O")]) := by
  obtain ⟨h1, md, h2, h3⟩ := h
  simp only [net186] at h1
  split at h1
  · cases h1; cases h2; cases h3; exact .inl ⟨rfl, rfl, rfl⟩
  · cases h1; cases h2; cases h3; exact .inr (.inl ⟨rfl, rfl, rfl⟩)
  · cases h1; cases h2; cases h3; exact .inr (.inr (.inl ⟨rfl, rfl, rfl⟩))
  · cases h1; cases h2; cases h3; exact .inr (.inr (.inr ⟨rfl, rfl, rfl⟩))
  · cases h1

theorem lists186 {a e : String} (h : Lists net186 a e) : (a = "ta" ∧ (e = "im" ∨ e = "op")) ∨ (a = "im" ∧ e = "leaf") := by
  obtain ⟨ec, fe, ep, subs, h1, h2, h3, h4⟩ := h
  rcases says186 h1 with ⟨rfl, rfl, rfl⟩ | ⟨rfl, rfl, rfl⟩ | ⟨rfl, rfl, rfl⟩ | ⟨rfl, rfl, rfl⟩
  · cases h2; cases h3
    simp only [List.mem_cons, List.not_mem_nil, or_false] at h4
    exact .inl ⟨rfl, h4⟩
  · cases h2; cases h3
    simp only [List.mem_cons, List.not_mem_nil, or_false] at h4
    exact .inr ⟨rfl, h4⟩
  · cases h2
  · cases h2

theorem under186 {e : String} (h : Under net186 "ta" e) : e = "ta" ∨ e = "im" ∨ e = "op" ∨ e = "leaf" := by
  induction h with
  | refl => exact .inl rfl
  | step _ h2 _ =>
    rcases lists186 h2 with ⟨-, rfl | rfl⟩ | ⟨-, rfl⟩
    · exact .inr (.inl rfl)
    · exact .inr (.inr (.inl rfl))
    · exact .inr (.inr (.inr rfl))

theorem answers186 : Answers net186 "ta" := by
  intro e h
  rcases under186 h with rfl | rfl | rfl | rfl
  · exact ⟨_, _, ⟨rfl, _, rfl, rfl⟩, fun h => absurd rfl h, fun ep hep => by cases hep; exact ⟨_, rfl⟩⟩
  · exact ⟨_, _, ⟨rfl, _, rfl, rfl⟩, fun _ => rfl, fun ep hep => by cases hep; exact ⟨_, rfl⟩⟩
  · exact ⟨_, _, ⟨rfl, _, rfl, rfl⟩, fun _ => rfl, fun ep hep => by cases hep⟩
  · exact ⟨_, _, ⟨rfl, _, rfl, rfl⟩, fun _ => rfl, fun ep hep => by cases hep⟩

def rank186 : String → Nat
  | "ta" => 2
  | "im" => 1
  | _ => 0

example : ∃ r, doSubordinates net186 3 "ta" "" = .ok r :=
  C186_ends_partial net186 "ta" answers186 rank186 (fun a e _ h => by rcases lists186 h with ⟨rfl, rfl | rfl⟩ | ⟨rfl, rfl⟩ <;> decide) 3 "ta" "" .refl (.inl rfl) (by decide)

/-- `a` lists itself. -/
def loop186 : Net where
  configuration _ := .ok (conf186 (some ["a"]) (some "list"))
  list _ := .ok ["a"]
end Ex

/-- C186 does not hold in full: an intermediate is not shown. -/
theorem C186_intermediate_violation : ¬ C186_full := by
  intro h
  obtain ⟨fuel, r, h1, h2⟩ := h Ex.net186 "ta" Ex.answers186
  have hl : Lists Ex.net186 "ta" "im" := ⟨_, _, _, _, ⟨rfl, _, rfl, rfl⟩, rfl, rfl, by decide⟩
  exact C186_intermediates_missing Ex.net186 fuel "ta" "" r h1 "im" _ _ ⟨rfl, _, rfl, rfl⟩ rfl (h2 "im" (.step .refl hl) (by decide))

/-- C186: for an entity that lists itself the script never ends. -/
theorem C186_loop : ∀ fuel superior, doSubordinates Ex.loop186 fuel "a" superior = .error .outOfFuel
  | 0, _ => rfl
  | n + 1, superior => by
    obtain ⟨cs, hcs⟩ := checkHints_total (ec := Ex.conf186 (some ["a"]) (some "list")) (e := "a") (superior := superior) (fun _ => rfl)
    have h1 : Says Ex.loop186 "a" (Ex.conf186 (some ["a"]) (some "list")) [("federation_list_endpoint", .str "list")] := ⟨rfl, _, rfl, rfl⟩
    simp only [doSubordinates, h1.1, ok_bind, hcs, h1.federationEntity]
    have h2 : Dict.get? [("federation_list_endpoint", Val.str "list")] "federation_list_endpoint" = some (.str "list") := rfl
    have h3 : Ex.loop186.list (.str "list") = .ok ["a"] := rfl
    simp only [h2, h3, ok_bind]
    rw [mergeAll_fails (f := fun sub => doSubordinates Ex.loop186 n sub "a") (C186_loop n "a")]
    rfl

/-- C186 does not hold in full: if an entity lists itself the script does not come to an end. -/
theorem C186_loop_violation : ¬ C186_full := by
  intro h
  obtain ⟨fuel, r, h1, -⟩ := h Ex.loop186 "a" (fun e _ => ⟨_, _, ⟨rfl, _, rfl, rfl⟩, fun _ => rfl, fun ep _ => ⟨_, rfl⟩⟩)
  rw [C186_loop] at h1
  cases h1

/-! ### The script in a federation set up with the other scripts -/

/-- What the script is answered by entities that run this software. `listHost` is who serves a list endpoint. -/
def netOf (L : Lib) (J : Jose) (K : SetEnum String) (W : Server.ListWorld) (ext : Bool) (member : String → Option Member) (listHost : Val → Option String) (now : Int) : Net where
  configuration e := match member e with
    | none => .error .missingPage
    | some m =>
      match Server.entityConfiguration m.authority now m.marks with
      | .error _ => .error .failedConfigurationRetrieval
      | .ok d => selfVerify L.toCrypto now (token J m.authority.entityId d)
  list ep := match (listHost ep).bind member with
    | none => .error .connectionError
    | some m =>
      match Server.list K W ext m.authority.subordinate [] with
      | .error x => .error x
      | .ok (.ids l) => .ok l
      | .ok (.confs d) => .ok d.keys

/-- Enrolled with somebody enrolled below `a`. -/
inductive EnrolledBelow (steps : List Step) (a : String) : String → Prop
  | refl : EnrolledBelow steps a a
  | step {b e : String} {t : Int} : EnrolledBelow steps a b → .enrol b e t ∈ steps → EnrolledBelow steps a e

/-- The entity publishes this as a federation entity. -/
def AsEntity (m : Member) (fe : Dict Val) : Prop := ∃ md, m.authority.metadata = .obj md ∧ Dict.get? md "federation_entity" = some (.obj fe)

/-- A federation with one trust anchor, in which entities are enrolled with whom they name as authority, and authorities serve the list endpoint they publish. -/
structure Rooted (s : Site) (steps : List Step) (listHost : Val → Option String) (root : String) : Prop where
  fresh : Fresh s
  enrolled : ∀ a e t, .enrol a e t ∈ steps → ∃ ma m fe, s.member a = some ma ∧ s.member e = some m ∧ a ∈ strs m.authority.hints ∧ AsEntity ma fe ∧
    (fe.get? "federation_list_endpoint").isSome = true
  serves : ∀ e m fe ep, s.member e = some m → AsEntity m fe → fe.get? "federation_list_endpoint" = some ep → listHost ep = some e
  top : ∃ m, s.member root = some m ∧ strs m.authority.hints = []
  only : ∀ e m, s.member e = some m → strs m.authority.hints = [] → e = root

section
variable {J : Jose} {L : Lib} {s : Site} {host listHost : Val → Option String} {rank : String → Nat} {steps : List Step} {client root : String}
variable {K : SetEnum String} {W : Server.ListWorld} {ext : Bool} {now : Int}

theorem Planned.says (w : Planned J L s host rank steps client) {e : String} {m : Member} {fe : Dict Val} (he : s.member e = some m) (hf : AsEntity m fe) :
    ∃ ec, Says (netOf L J K W ext (setUp L.toCrypto J s steps).member listHost now) e ec fe ∧ ec.hints = if strs m.authority.hints = [] then none else some (strs m.authority.hints) := by
  obtain ⟨md, h1, h2⟩ := hf
  obtain ⟨d, h0, -, -, h3, h4, h5, -, -, h6, -⟩ := Server.C86_configuration m.authority now m.marks
  obtain ⟨k, k1, k2, k3⟩ := w.signs e m d he
  have hv : selfVerify L.toCrypto now (token J m.authority.entityId d) = .ok (decode J d) := by
    unfold selfVerify
    have hk : (token J m.authority.entityId d).payload.jwks = some (J.keys m.authority.ownKeys) := by simp [token, decode, h3]
    rw [hk]
    simp only
    rw [if_pos]
    · rfl
    · rw [(w.id e m he).1, Bool.and_eq_true, List.any_eq_true]
      refine ⟨⟨k, List.mem_filter.2 ⟨k1, k2⟩, k3⟩, w.time _ (now + 86400) _ ?_ (by omega)⟩
      simp [token, decode, h6, asInt]
  refine ⟨decode J d, ⟨?_, objs (.obj md), ?_, ?_⟩, ?_⟩
  · simp only [netOf]
    rw [setUp_member he]
    have : Server.entityConfiguration (setReg m (registry (setUp L.toCrypto J s steps) e)).authority now (setReg m (registry (setUp L.toCrypto J s steps) e)).marks = .ok d := h0
    simp only [this]
    exact hv
  · have : m.authority.metadata.truthy = true := by
      rw [h1]
      cases md with
      | nil => cases h2
      | cons p md => rfl
    rw [h1] at this h4
    simp [decode, h4, Option.filter, this]
  · exact Chains.objs_get h2
  · simp only [decode, h5]
    have := hints_read (w.hints e m he)
    by_cases ht : m.authority.hints.truthy = true
    · rw [if_neg (this.1 ht)]; simp [Option.filter, ht]
    · rw [if_pos (Classical.byContradiction fun hn => ht (this.2 hn))]; simp [Option.filter, ht]

/-- Who is listed by whom. -/
theorem Planned.lists (w : Planned J L s host rank steps client) (hr : Rooted s steps listHost root) {a e : String} :
    Lists (netOf L J K W ext (setUp L.toCrypto J s steps).member listHost now) a e ↔ ∃ t, .enrol a e t ∈ steps := by
  have listed : ∀ a ma, s.member a = some ma → ∃ all, Server.list K W ext (registry (setUp L.toCrypto J s steps) a) [] = .ok (.ids all) ∧ ∀ e, e ∈ all ↔ ∃ t, .enrol a e t ∈ steps := by
    intro a ma ha
    obtain ⟨ma', all, inter, h1, h2, -, h4, -⟩ := C185_listed_partial w hr.fresh a ma ha (fun e t ht => by obtain ⟨_, m, _, _, h, -⟩ := hr.enrolled a e t ht; exact ⟨m, h⟩) K W ext
    rw [← registry_member h1] at h2
    exact ⟨all, h2, h4⟩
  have answer : ∀ a ma fe ep, s.member a = some ma → AsEntity ma fe → fe.get? "federation_list_endpoint" = some ep → ∃ all,
      (netOf L J K W ext (setUp L.toCrypto J s steps).member listHost now).list ep = .ok all ∧ ∀ e, e ∈ all ↔ ∃ t, .enrol a e t ∈ steps := by
    intro a ma fe ep ha hf hep
    obtain ⟨all, h1, h2⟩ := listed a ma ha
    refine ⟨all, ?_, h2⟩
    simp only [netOf, hr.serves a ma fe ep ha hf hep, Option.bind_some, setUp_member ha, setReg, h1]
  constructor
  · rintro ⟨ec, fe, ep, subs, h1, h2, h3, h4⟩
    cases ha : s.member a with
    | none =>
      exfalso
      obtain ⟨r, hr'⟩ := setUp_members L.toCrypto J steps s a
      rw [ha] at hr'
      have := h1.1
      simp only [netOf, hr', Option.map_none] at this
      cases this
    | some ma =>
      obtain ⟨md', fe', k1, k2⟩ := w.metadata a ma ha
      obtain ⟨ec', k3, -⟩ := w.says (K := K) (W := W) (ext := ext) (now := now) (listHost := listHost) ha ⟨md', k1, k2⟩
      obtain ⟨-, rfl⟩ := h1.unique k3
      obtain ⟨all, k4, k5⟩ := answer a ma fe ep ha ⟨md', k1, k2⟩ h2
      rw [k4] at h3
      cases h3
      exact (k5 e).1 h4
  · rintro ⟨t, ht⟩
    obtain ⟨ma, m, fe, h1, h2, h3, h4, h5⟩ := hr.enrolled a e t ht
    obtain ⟨ep, hep⟩ := Option.isSome_iff_exists.1 h5
    obtain ⟨ec, k1, -⟩ := w.says (K := K) (W := W) (ext := ext) (now := now) (listHost := listHost) h1 h4
    obtain ⟨all, k4, k5⟩ := answer a ma fe ep h1 h4 hep
    exact ⟨ec, fe, ep, all, k1, hep, k4, (k5 e).2 ⟨t, ht⟩⟩

theorem Planned.under (w : Planned J L s host rank steps client) (hr : Rooted s steps listHost root) {a e : String} :
    Under (netOf L J K W ext (setUp L.toCrypto J s steps).member listHost now) a e ↔ EnrolledBelow steps a e := by
  constructor
  · intro h
    induction h with
    | refl => exact .refl
    | step _ h2 ih =>
      obtain ⟨t, ht⟩ := (w.lists hr).1 h2
      exact .step ih ht
  · intro h
    induction h with
    | refl => exact .refl
    | step _ h2 ih => exact .step ih ((w.lists hr).2 ⟨_, h2⟩)

theorem Rooted.member (hr : Rooted s steps listHost root) {e : String} (h : EnrolledBelow steps root e) : ∃ m, s.member e = some m ∧ (e ≠ root → strs m.authority.hints ≠ []) := by
  cases h with
  | refl => obtain ⟨m, h, -⟩ := hr.top; exact ⟨m, h, fun hn => absurd rfl hn⟩
  | step _ h2 =>
    obtain ⟨_, m, _, _, h3, h4, -⟩ := hr.enrolled _ _ _ h2
    exact ⟨m, h3, fun _ => List.ne_nil_of_mem h4⟩

/-- C186 in a federation set up with the scripts: the script comes to an end, complains of nobody, and shows exactly the members enrolled below the anchor that publish no list endpoint. -/
theorem C186_set_up_partial (w : Planned J L s host rank steps client) (hr : Rooted s steps listHost root) (hb : ∃ b, ∀ e m, s.member e = some m → rank e ≤ b) :
    ∃ fuel r, doSubordinates (netOf L J K W ext (setUp L.toCrypto J s steps).member listHost now) fuel root "" = .ok r ∧ r.complaints = [] ∧
      (∀ e v, r.tree.get? e = some v → v = .obj []) ∧
      ∀ e, e ∈ r.tree.keys ↔ EnrolledBelow steps root e ∧ ∃ m fe, s.member e = some m ∧ AsEntity m fe ∧ fe.get? "federation_list_endpoint" = none := by
  obtain ⟨b, hb⟩ := hb
  generalize hN : netOf L J K W ext (setUp L.toCrypto J s steps).member listHost now = N
  have under : ∀ e, Under N root e ↔ EnrolledBelow steps root e := fun e => by rw [← hN]; exact w.under hr
  have lists : ∀ a e, Lists N a e ↔ ∃ t, .enrol a e t ∈ steps := fun a e => by rw [← hN]; exact w.lists hr
  have says : ∀ e m fe, s.member e = some m → AsEntity m fe → ∃ ec, Says N e ec fe ∧ ec.hints = if strs m.authority.hints = [] then none else some (strs m.authority.hints) :=
    fun e m fe he hf => by rw [← hN]; exact w.says he hf
  have hup : ∀ a e t, .enrol a e t ∈ steps → rank a < rank e := by
    intro a e t ht
    obtain ⟨ma, m, fe, h1, h2, h3, -⟩ := hr.enrolled a e t ht
    obtain ⟨_, _, _, _, _, h4, -⟩ := w.superior e m a h2 h3
    exact h4
  have hans : Answers N root := by
    intro e he
    obtain ⟨m, h1, h2⟩ := hr.member ((under e).1 he)
    obtain ⟨md, fe, h3, h4⟩ := w.metadata e m h1
    obtain ⟨ec, k1, k2⟩ := says e m fe h1 ⟨md, h3, h4⟩
    refine ⟨ec, fe, k1, fun hn => by rw [k2, if_neg (h2 hn)]; rfl, fun ep hep => ?_⟩
    rw [← hN]
    obtain ⟨all, g1⟩ : ∃ all, Server.list K W ext (registry (setUp L.toCrypto J s steps) e) [] = .ok (.ids all) := ⟨_, Server.C57_all K W ext _ [] (by intro k hk; cases hk)⟩
    refine ⟨all, ?_⟩
    simp only [netOf, hr.serves e m fe ep h1 ⟨md, h3, h4⟩ hep, Option.bind_some, setUp_member h1, setReg, g1]
  obtain ⟨r, hr1⟩ := C186_ends_partial N root hans (fun e => b - rank e) (fun a e ha hl => by
      obtain ⟨t, ht⟩ := (lists a e).1 hl
      obtain ⟨_, m, _, _, h2, -⟩ := hr.enrolled a e t ht
      have h4 : rank a < rank e := hup a e t ht
      have h5 := hb e m h2
      show b - rank e < b - rank a
      omega) (b - rank root + 1) root "" .refl (.inl rfl) (by omega)
  obtain ⟨l1, l2⟩ := C186_leaves_partial N _ root "" r hr1
  refine ⟨_, r, hr1, ?_, l1, fun e => ?_⟩
  · cases hc : r.complaints with
    | nil => rfl
    | cons c cs =>
      exfalso
      have hm : (c.1, c.2) ∈ r.complaints := by rw [hc]; exact List.mem_cons_self ..
      have hid : ∀ ec, N.configuration "" ≠ .ok ec := by
        intro ec h
        rw [← hN] at h
        simp only [netOf] at h
        split at h
        · cases h
        · rename_i m hm
          obtain ⟨m0, h0, -⟩ := member_setUp hm
          exact (w.id "" m0 h0).2.1 rfl
      obtain ⟨ec, hs, h1, h2, h3, ⟨h6, h4, -⟩ | ⟨-, h5⟩⟩ := (C186_complaints N hid _ root "" r hr1 c.1 c.2).1 hm
      · exact h4 h6
      · obtain ⟨t, ht⟩ := (lists _ _).1 h5
        obtain ⟨ma, m, _, _, k1, k2, -⟩ := hr.enrolled _ _ _ ht
        obtain ⟨md, fe, k3, k4⟩ := w.metadata _ m k1
        obtain ⟨ec', k5, k6⟩ := says _ m fe k1 ⟨md, k3, k4⟩
        rw [k5.1] at h1; cases h1
        rw [k6, if_neg (List.ne_nil_of_mem k2)] at h2
        cases h2
        exact h3 k2
  · rw [l2, under]
    constructor
    · rintro ⟨h1, ec, fe, h2, h3⟩
      obtain ⟨m, k1, -⟩ := hr.member h1
      obtain ⟨md, fe', k3, k4⟩ := w.metadata e m k1
      obtain ⟨ec', k5, -⟩ := says e m fe' k1 ⟨md, k3, k4⟩
      obtain ⟨-, rfl⟩ := h2.unique k5
      exact ⟨h1, m, fe, k1, ⟨md, k3, k4⟩, h3⟩
    · rintro ⟨h1, m, fe, k1, k2, k3⟩
      obtain ⟨ec, k5, -⟩ := says e m fe k1 k2
      exact ⟨h1, ec, fe, k5, k3⟩

/-- Knowing the keys of the root is enough. -/
theorem Rooted.wellKept (w : Planned J L s host rank steps client) (hr : Rooted s steps listHost root) {jar : KeyJar} {mr : Member} (hmr : s.member root = some mr)
    (hj : Dict.has jar root = true ∧ ∀ k ∈ J.keys mr.authority.ownKeys, k ∈ jar.keysOf root) : WellKept J L (setUp L.toCrypto J s steps).member host jar rank :=
  { w.wellKept [] with
    anchors := fun e m hm hh => by
      obtain ⟨m0, h0, rfl⟩ := member_setUp hm
      cases hr.only e m0 h0 hh
      rw [hmr] at h0
      cases h0
      exact hj }

theorem findTrustChain_found (V : Env) (w : Planned J V.L s host rank steps client) (hr : Rooted s steps listHost root) (issued now : Int)
    (hW : V.W = (world J (setUp V.L.toCrypto J s steps).member host issued).at now) (hnow : now < issued + 86400 - V.P.delta ∧ now < issued + 86400)
    (hurl : ∀ e m, s.member e = some m → Constraints.IsUrl e) {mr : Member} (hmr : s.member root = some mr) :
    ∀ (d : Dict Val) (h : List Collect.FRun) (st : State), (∀ p ∈ d, ∃ m, s.member p.1 = some m ∧ strs m.authority.hints ≠ [] ∧ rank p.1 < V.fuel) →
      (Dict.has st.jar root = true ∧ ∀ k ∈ J.keys mr.authority.ownKeys, k ∈ st.jar.keysOf root) →
      st.coll = Collect.runAll V.L.toCrypto V.P (h.map (Collect.FRun.run (world J (setUp V.L.toCrypto J s steps).member host issued))) →
      (h.Pairwise fun a b => a.time ≤ b.time) → (∀ r ∈ h, r.time ≤ now) → (∀ r ∈ h, Collect.Plain r.entity) →
      (findTrustChain V root st d).1 = .ok (d.map fun p => (p.1, .found))
  | [], _, _, _, _, _, _, _, _ => rfl
  | (e, v) :: d, h, st, hd, hj, hst, ho, ht, hp => by
    obtain ⟨m, he, hh, hf⟩ := hd (e, v) (List.mem_cons_self ..)
    have hstop : Stop s.member "" := by
      intro m hm
      exact absurd rfl (w.id "" m hm).2.1
    obtain ⟨out, g1, g2, -, g3⟩ := w.resolves V J s steps client host issued now st h "" e m rank (hr.wellKept w hmr hj) hW hst ho ht hp hnow hstop he hf hh hurl
    have hkeep := getVerified_keeps g1 root
    obtain ⟨_, _, _, _, _, _, -, hcoll, -⟩ := getVerified_ok g1
    have ih := findTrustChain_found V w hr issued now hW hnow hurl hmr d (h ++ [⟨now, V.fuel, e, ""⟩]) (getVerified V st e).2 (fun p hp => hd p (List.mem_cons_of_mem _ hp))
      ⟨hkeep.2 hj.1, fun k hk => hkeep.1 k (hj.2 k hk)⟩
      (by
        rw [hcoll, hst, hW]
        simp only [Collect.runAll, List.map_append, List.foldl_append, List.map_cons, List.map_nil, List.foldl_cons, List.foldl_nil]
        rfl)
      (by
        rw [List.pairwise_append]
        refine ⟨ho, List.pairwise_singleton .., ?_⟩
        intro a ha b hb
        rw [List.mem_singleton.1 hb]
        exact ht a ha)
      (by
        intro r hr
        rcases List.mem_append.1 hr with hr | hr
        · exact ht r hr
        · rw [List.mem_singleton.1 hr]; exact Int.le_refl _)
      (by
        intro r hr
        rcases List.mem_append.1 hr with hr | hr
        · exact hp r hr
        · rw [List.mem_singleton.1 hr]; exact (w.id e m he).2.2)
    have hany : out.any (fun tc => decide (tc.anchor = root)) = true := by
      cases out with
      | nil => exact absurd rfl g2
      | cons tc out =>
        obtain ⟨-, ⟨ma, k1, k2⟩, -⟩ := g3 tc (List.mem_cons_self ..)
        simp [hr.only _ _ k1 k2]
    have hemp : out.isEmpty = false := by
      cases out with
      | nil => exact absurd rfl g2
      | cons tc out => rfl
    unfold findTrustChain
    generalize getVerified V st e = r at g1 ih ⊢
    obtain ⟨r1, st1⟩ := r
    simp only at g1 ih ⊢
    subst g1
    simp only [hemp, hany]
    generalize findTrustChain V root st1 d = r at ih ⊢
    obtain ⟨r2, st2⟩ := r
    simp only at ih ⊢
    subst ih
    rfl

/-- C186 in a federation set up with the scripts: given nothing but the keys the trust anchor publishes, the script finds for everybody it shows a verified trust chain to that anchor. -/
theorem C186_chains_partial (V : Env) (w : Planned J V.L s host rank steps client) (hr : Rooted s steps listHost root) (issued : Int) (own : KeyJar) (store : Dict (List TrustChain))
    (hW : V.W = (world J (setUp V.L.toCrypto J s steps).member host issued).at now) (hnow : now < issued + 86400 - V.P.delta ∧ now < issued + 86400)
    (hurl : ∀ e m, s.member e = some m → Constraints.IsUrl e) (hfuel : ∀ e m, s.member e = some m → rank e < V.fuel) (mr : Member) (fe : Dict Val) (hmr : s.member root = some mr)
    (hfe : AsEntity mr fe) (hep : (fe.get? "federation_list_endpoint").isSome = true) (fuel : Nat) (r : Shown)
    (h : doSubordinates (netOf V.L J K W ext (setUp V.L.toCrypto J s steps).member listHost now) fuel root "" = .ok r) :
    (findTrustChain V root { jar := Config.importJwks own root (J.keys mr.authority.ownKeys), store := store } r.tree).1 = .ok (r.tree.map fun p => (p.1, .found)) := by
  refine findTrustChain_found V w hr issued now hW hnow hurl hmr r.tree [] _ ?_ ?_ rfl .nil (by intro r hr; cases hr) (by intro r hr; cases hr)
  · intro p hp
    have hk : p.1 ∈ r.tree.keys := List.mem_map_of_mem hp
    obtain ⟨h1, ec, fe', h2, h3⟩ := ((C186_leaves_partial _ _ root "" r h).2 p.1).1 hk
    obtain ⟨m, k1, k2⟩ := hr.member ((w.under hr).1 h1)
    refine ⟨m, k1, k2 ?_, hfuel _ _ k1⟩
    intro hn
    rw [hn] at h2
    obtain ⟨ec', k5, -⟩ := w.says (K := K) (W := W) (ext := ext) (now := now) (listHost := listHost) hmr hfe
    obtain ⟨-, rfl⟩ := h2.unique k5
    rw [h3] at hep
    cases hep
  · exact ⟨by rw [Dict.has_iff, Dict.mem_keys_iff_exists]; exact ⟨_, Dict.get?_set_self _ _ _⟩, fun k hk => Config.keysOf_importJwks_self hk⟩

end

namespace Ex
open Chains.Ex

def listHost186 : Val → Option String
  | .str "https://ta/list" => some "https://ta"
  | .str "https://im/list" => some "https://im"
  | _ => none

theorem rooted186 : Rooted site185 steps185 listHost186 "https://ta" where
  fresh := fresh185
  enrolled a e t h := by
    simp only [steps185, List.mem_cons, List.not_mem_nil, or_false, reduceCtorEq, false_or, Step.enrol.injEq] at h
    rcases h with ⟨rfl, rfl, -⟩ | ⟨rfl, rfl, -⟩ | ⟨rfl, rfl, -⟩
    · exact ⟨ta185, im185, _, rfl, rfl, by decide, ⟨_, rfl, rfl⟩, rfl⟩
    · exact ⟨im185, leaf185, _, rfl, rfl, by decide, ⟨_, rfl, rfl⟩, rfl⟩
    · exact ⟨ta185, im185, _, rfl, rfl, by decide, ⟨_, rfl, rfl⟩, rfl⟩
  serves e m fe ep h hf hep := by
    obtain ⟨md, h1, h2⟩ := hf
    rcases member185_some h with ⟨rfl, rfl⟩ | ⟨rfl, rfl⟩ | ⟨rfl, rfl⟩
    · cases h1; cases h2; cases hep; decide +kernel
    · cases h1; cases h2; cases hep; decide +kernel
    · cases h1; cases h2; cases hep
  top := ⟨ta185, rfl, rfl⟩
  only e m h hh := by
    rcases member185_some h with ⟨rfl, rfl⟩ | ⟨rfl, rfl⟩ | ⟨rfl, rfl⟩
    · rfl
    · cases hh
    · cases hh

example : (findTrustChain (env (W 0)) "https://other" { jar := [("https://ta", [1])] } [("https://leaf", .obj [])]).1 = .ok [("https://leaf", .noneToRoot)] ∧
    (findTrustChain (env (W 0)) "https://ta" { jar := [] } [("https://leaf", .obj [])]).1 = .ok [("https://leaf", .noChain)] := by decide +kernel

/-- In the federation of C185 the leaf is shown, with its chain; the intermediate is not. -/
example : (doSubordinates (netOf L J SetEnum.insertion ⟨fun _ => .error .connectionError, fun _ _ => false⟩ false (setUp L.toCrypto J site185 steps185).member listHost186 100) 5 "https://ta" "").toOption.map (·.tree) =
    some [("https://leaf", .obj [])] := by decide +kernel

example (h) := C186_chains_partial (K := SetEnum.insertion) (W := ⟨fun _ => .error .connectionError, fun _ _ => false⟩) (ext := false) (env ((world J (setUp L.toCrypto J site185 steps185).member host133 0).at 100)) planned185 rooted186 0 [] [] rfl (by decide) url185
  (fun e m h => by rcases member185_some h with ⟨rfl, rfl⟩ | ⟨rfl, rfl⟩ | ⟨rfl, rfl⟩ <;> decide) ta185 _ rfl ⟨_, rfl, rfl⟩ rfl 5 ⟨[("https://leaf", .obj [])], []⟩ h
end Ex

end Fed.Setup
