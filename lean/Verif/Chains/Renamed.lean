import Verif.Chains.Waiting
import Verif.Discover.WalkKeys

/-!
# C233: identifiers are only names

Two federations that differ only in what their members are called are treated alike: where an entity resolves in one, it resolves in the other, to the same trust chains with the same metadata and the same expiry times,
but for the names. The functions concerned are those of Verif/Collect/Collector.lean, Verif/Verifier/Model.lean and Verif/Chains/Model.lean (which cite the code). Naming constraints are about names, so there are none here.
-/

namespace Fed.Chains

open Collect hiding State collect
open Verify (TrustChain Lib KeyJar verifyKeys trustedAnchor addKeys verifyLoop verifyTrustChain verifyChain expiresAt expiresLoop meets toC)

section
variable (π : String → String)

/-- The payload with the names of entities replaced. -/
def renP (p : Payload) : Payload := { p with iss := π p.iss, sub := π p.sub, hints := p.hints.map (List.map π), aud := p.aud.map π, trustAnchor := p.trustAnchor.map π }
/-- The same document by an issuer of another name. -/
def renJ (j : Jws) : Jws := ⟨renP π j.payload, j.sig⟩
def renD (d : Doc) : Doc := Option.map (renJ π) d
def renB : Branch → (Forest Jws → Forest Jws) → Branch
  | none, _ => none
  | some (s, sub), g => some (renJ π s, g sub)
def renF : Forest Jws → Forest Jws
  | .nil => .nil
  | .missing a r => .missing (π a) (renF r)
  | .node a s sub r => .node (π a) (renJ π s) (renF sub) (renF r)
/-- The trust chain with the names replaced; metadata and expiry time are the same. -/
def renTC (tc : TrustChain) : TrustChain := { tc with anchor := π tc.anchor, issPath := tc.issPath.map π, verified := tc.verified.map (renP π), chain := tc.chain.map (renD π) }
/-- The same keys are held for the same entities. -/
def SameKeys (jar jar' : KeyJar) : Prop := ∀ e, Dict.get? jar' (π e) = Dict.get? jar e
end

/-- The second federation, and the second process, differ from the first in the names of entities only. -/
structure Renamed (π : String → String) (F F' : Federation) (V V' : Env) : Prop where
  inj : ∀ a b, π a = π b → a = b
  config : ∀ a, F'.config (π a) = (F.config a).map (renD π)
  fetch : ∀ ep a e, F'.fetch ep (π a) (π e) = (F.fetch ep a e).map (renD π)
  usable : ∀ j k, V'.L.usable (renJ π j) k = V.L.usable j k
  verifies : ∀ j k, V'.L.verifies (renJ π j) k = V.L.verifies j k
  current : ∀ t j, V'.L.current t (renJ π j) = V.L.current t j
  raises : V'.L.unknownRaises = V.L.unknownRaises
  delta : V'.P.delta = V.P.delta
  anchors : ∀ a, π a ∈ V'.P.anchors ↔ a ∈ V.P.anchors
  now : V'.W.now = V.W.now
  fuel : V'.fuel = V.fuel
  E : V'.E = V.E
  K : V'.K = V.K

/-- The document has no naming constraints. -/
def Unnamed (j : Jws) : Prop := ∀ c, j.payload.constraints = some c → c.naming = none

/-- No published document has naming constraints. -/
structure Federation.Unnamed (F : Federation) : Prop where
  config : ∀ a j, F.config a = .ok (some j) → Chains.Unnamed j
  fetch : ∀ ep a e j, F.fetch ep a e = .ok (some j) → Chains.Unnamed j

section
variable {π : String → String} {F F' : Federation} {V V' : Env}

/-! ### Collection -/

theorem Renamed.selfVerify (r : Renamed π F F' V V') (t : Int) (j : Jws) : selfVerify V'.L.toCrypto t (renJ π j) = (selfVerify V.L.toCrypto t j).map (renP π) := by
  unfold Fed.selfVerify
  show (match j.payload.jwks with | none => _ | some ks => _) = _
  cases j.payload.jwks with
  | none => rfl
  | some ks =>
    simp only
    have h1 : V'.L.toCrypto.usable (renJ π j) = V.L.toCrypto.usable j := funext (r.usable j)
    have h2 : V'.L.toCrypto.verifies (renJ π j) = V.L.toCrypto.verifies j := funext (r.verifies j)
    rw [h1, h2, r.current t j]
    split <;> rfl

theorem selfVerify_ok {C : Crypto} {t : Int} {j : Jws} {p : Payload} (h : Fed.selfVerify C t j = .ok p) : p = j.payload := by
  unfold Fed.selfVerify at h
  split at h
  · cases h
  · split at h
    · cases h; rfl
    · cases h

theorem Renamed.selfVerify_iff (r : Renamed π F F' V V') (t : Int) (j : Jws) :
    Fed.selfVerify V'.L.toCrypto t (renJ π j) = .ok (renJ π j).payload ↔ Fed.selfVerify V.L.toCrypto t j = .ok j.payload := by
  rw [r.selfVerify]
  cases h : Fed.selfVerify V.L.toCrypto t j with
  | error e => exact ⟨fun h => (nomatch h), fun h => (nomatch h)⟩
  | ok p => rw [selfVerify_ok h]; exact ⟨fun _ => rfl, fun _ => rfl⟩

theorem Renamed.publishedConfig (r : Renamed π F F' V V') (a : String) :
    publishedConfig V'.L.toCrypto F' V'.W.now (π a) = (publishedConfig V.L.toCrypto F V.W.now a).map (renJ π) := by
  unfold Collect.publishedConfig
  rw [r.config a, r.now]
  rcases F.config a with e | _ | j
  · rfl
  · rfl
  · show (if Fed.selfVerify V'.L.toCrypto V.W.now (renJ π j) = .ok (renJ π j).payload then some (renJ π j) else none) = _
    simp only [r.selfVerify_iff]
    split <;> rfl

theorem Renamed.publishedStatement (r : Renamed π F F' V V') (a e : String) :
    publishedStatement V'.L.toCrypto F' V'.W.now (π a) (π e) = (publishedStatement V.L.toCrypto F V.W.now a e).map (Option.map (renJ π)) := by
  unfold Collect.publishedStatement
  rw [r.publishedConfig a]
  cases Collect.publishedConfig V.L.toCrypto F V.W.now a with
  | none => rfl
  | some j0 =>
    show (match getFetchEndpoint j0.payload with | .error _ => none | .ok ep => _) = _
    simp only
    cases getFetchEndpoint j0.payload with
    | error e => rfl
    | ok ep =>
      simp only
      cases usableEndpoint ep with
      | none => rfl
      | some v =>
        simp only [r.fetch]
        rcases F.fetch v a e with x | _ | j
        · rfl
        · rfl
        · show (if j.payload.exp.isSome then some (some (renJ π j)) else none) = _
          simp only
          split <;> rfl

theorem Renamed.freshAt (r : Renamed π F F' V V') (j : Jws) : freshAt V'.P V'.W.now (renJ π j) = freshAt V.P V.W.now j := by
  unfold Collect.freshAt
  rw [r.now, r.delta]
  rfl

theorem renF_set (inj : ∀ a b, π a = π b → a = b) : ∀ (f : Forest Jws) (a : String) (b : Branch), renF π (f.set a b) = (renF π f).set (π a) (renB π b (renF π)) := by
  intro f a b
  induction f with
  | nil => rcases b with _ | ⟨s, sub⟩ <;> rfl
  | missing i q ih =>
    unfold renF Forest.set
    by_cases h : i = a
    · rw [if_pos h, if_pos (by rw [h])]
      rcases b with _ | ⟨s, sub⟩ <;> rfl
    · rw [if_neg h, if_neg (fun e => h (inj _ _ e)), ← ih]
  | node i s' sub' q _ ih =>
    conv => rhs; unfold renF
    unfold Forest.set
    by_cases h : i = a
    · rw [if_pos h, if_pos (by rw [h])]
      rcases b with _ | ⟨s, sub⟩ <;> rfl
    · rw [if_neg h, if_neg (fun e => h (inj _ _ e)), ← ih]
      rfl

theorem renF_hints (inj : ∀ a b, π a = π b → a = b) {br br' : String → Option Branch} (h : ∀ a, br' (π a) = (br a).map fun b => renB π b (renF π)) :
    ∀ (hs : List String) (acc : Forest Jws), idealHints br' (hs.map π) (renF π acc) = (idealHints br hs acc).map (renF π)
  | [], _ => rfl
  | a :: as, acc => by
    simp only [List.map_cons]
    unfold idealHints
    rw [h a]
    cases br a with
    | none => rfl
    | some b =>
      simp only [Option.map_some]
      rw [← renF_set inj]
      exact renF_hints inj h as _

theorem Renamed.branch (r : Renamed π F F' V V') {tree tree' : String → Payload → Option (Forest Jws)} (ht : ∀ a p, tree' (π a) (renP π p) = (tree a p).map (renF π)) (e a : String) :
    idealBranch V'.L.toCrypto V'.P F' V'.W.now tree' (π e) (π a) = (idealBranch V.L.toCrypto V.P F V.W.now tree e a).map fun b => renB π b (renF π) := by
  unfold idealBranch
  by_cases hc : e = a ∧ e ∈ V.P.anchors
  · rw [if_pos hc, if_pos ⟨by rw [hc.1], (r.anchors e).2 hc.2⟩]; rfl
  · rw [if_neg hc, if_neg (fun h => hc ⟨r.inj _ _ h.1, (r.anchors e).1 h.2⟩), r.publishedStatement, r.publishedConfig]
    rcases Collect.publishedStatement V.L.toCrypto F V.W.now a e with _ | _ | s
    · rfl
    · rfl
    · simp only [Option.map_some]
      cases Collect.publishedConfig V.L.toCrypto F V.W.now a with
      | none => rfl
      | some j =>
        simp only [Option.map_some, r.freshAt]
        split
        · have := ht a j.payload
          rw [show (renJ π j).payload = renP π j.payload from rfl, this]
          cases tree a j.payload <;> rfl
        · rfl

theorem Renamed.tree (r : Renamed π F F' V V') (stopAt : String) : ∀ (n : Nat) (e : String) (p : Payload),
    idealTree V'.L.toCrypto V'.P F' V'.W.now (π stopAt) n (π e) (renP π p) = (idealTree V.L.toCrypto V.P F V.W.now stopAt n e p).map (renF π)
  | 0, _, _ => rfl
  | n + 1, e, p => by
    unfold idealTree
    show (match p.hints.map (List.map π) with | none => _ | some hs => if π p.iss = π stopAt then _ else _) = _
    cases p.hints with
    | none => rfl
    | some hs =>
      simp only [Option.map_some]
      by_cases h : p.iss = stopAt
      · rw [if_pos h, if_pos (by rw [h])]; rfl
      · rw [if_neg h, if_neg (fun x => h (r.inj _ _ x))]
        exact renF_hints r.inj (fun a => r.branch (r.tree stopAt n) e a) hs .nil

theorem Renamed.collect (r : Renamed π F F' V V') (fuel : Nat) (entity stopAt : String) :
    idealCollect V'.L.toCrypto V'.P F' V'.W.now fuel (π entity) (π stopAt) = (idealCollect V.L.toCrypto V.P F V.W.now fuel entity stopAt).map fun x => (renF π x.1, renJ π x.2) := by
  unfold idealCollect
  rw [r.publishedConfig]
  cases Collect.publishedConfig V.L.toCrypto F V.W.now entity with
  | none => rfl
  | some j =>
    simp only [Option.map_some]
    rw [show (renJ π j).payload = renP π j.payload from rfl, r.tree]
    cases idealTree V.L.toCrypto V.P F V.W.now stopAt fuel entity j.payload <;> rfl

theorem renF_chains (f : Forest Jws) : tree2chains (renF π f) = (tree2chains f).map (List.map (renJ π)) := by
  fun_induction tree2chains f with
  | case1 => rfl
  | case2 i q ih => simp only [renF, tree2chains, ih, List.map_cons, List.map_nil]
  | case3 i s q ih => simp only [renF, tree2chains, ih, List.map_cons, List.map_nil]
  | case4 i s sub q hn ih1 ih2 =>
    have : renF π sub ≠ .nil := by
      cases sub with
      | nil => exact absurd rfl hn
      | missing => intro h; cases h
      | node => intro h; cases h
    unfold renF
    rw [tree2chains, ih1, ih2]
    · simp only [List.map_append, List.map_map]
      congr 1
      apply List.map_congr_left
      intro c _
      simp
    · exact this

/-! ### The collected documents have no naming constraints -/

open Discover.Walk (AllIn)

theorem unnamed_hints {br : String → Option Branch} (hb : ∀ a s sub, br a = some (some (s, sub)) → Unnamed s ∧ AllIn Unnamed sub) : ∀ (hs : List String) (acc f : Forest Jws), AllIn Unnamed acc → idealHints br hs acc = some f → AllIn Unnamed f
  | [], _, _, h, e => by cases e; exact h
  | a :: as, acc, f, h, e => by
    unfold idealHints at e
    cases hx : br a with
    | none => rw [hx] at e; cases e
    | some b =>
      rw [hx] at e
      exact unnamed_hints hb as _ _ (h.set fun s sub hs => hb a s sub (by rw [hx, hs])) e

theorem unnamed_tree {C : Crypto} {P : Params} {t : Int} (hF : Federation.Unnamed F) (stopAt : String) : ∀ (n : Nat) (e : String) (p : Payload) (f : Forest Jws), idealTree C P F t stopAt n e p = some f → AllIn Unnamed f
  | 0, _, _, _, h => by cases h
  | n + 1, e, p, f, h => by
    unfold idealTree at h
    split at h
    · cases h; trivial
    · split at h
      · cases h; trivial
      · refine unnamed_hints (fun a s sub hb => ?_) _ .nil _ trivial h
        unfold idealBranch at hb
        split at hb
        · cases hb
        · split at hb
          · cases hb
          · cases hb
          · rename_i s' hs'
            split at hb
            · cases hb
            · rename_i j _
              split at hb
              · cases hx : idealTree C P F t stopAt n a j.payload with
                | none => rw [hx] at hb; cases hb
                | some f' =>
                  rw [hx] at hb
                  cases hb
                  refine ⟨?_, unnamed_tree hF stopAt n _ _ _ hx⟩
                  unfold Collect.publishedStatement at hs'
                  split at hs'
                  · cases hs'
                  · split at hs'
                    · cases hs'
                    · split at hs'
                      · cases hs'
                      · split at hs'
                        · rename_i hf
                          split at hs'
                          · cases hs'; exact hF.fetch _ _ _ _ hf
                          · cases hs'
                        · cases hs'
              · cases hb

/-! ### Verification -/

theorem Renamed.verifyKeys (r : Renamed π F F' V V') {jar jar' : KeyJar} (h : SameKeys π jar jar') (j : Jws) : verifyKeys V'.L jar' (renJ π j) = verifyKeys V.L jar j := by
  unfold Verify.verifyKeys KeyJar.keysOf
  rw [show (renJ π j).payload.iss = π j.payload.iss from rfl, h, show V'.L.usable (renJ π j) = V.L.usable j from funext (r.usable j)]

theorem SameKeys.set (inj : ∀ a b, π a = π b → a = b) {jar jar' : KeyJar} (h : SameKeys π jar jar') (e : String) (ks : List Key) : SameKeys π (Dict.set jar e ks) (Dict.set jar' (π e) ks) := by
  intro a
  rw [Dict.get?_set, Dict.get?_set]
  by_cases x : e = a
  · rw [if_pos x, if_pos (by rw [x])]
  · rw [if_neg x, if_neg (fun y => x (inj _ _ y))]; exact h a

theorem Renamed.addKeys (r : Renamed π F F' V V') {jar jar' : KeyJar} (h : SameKeys π jar jar') (e : String) (ks : List Key) : SameKeys π (addKeys V.L jar e ks) (addKeys V'.L jar' (π e) ks) := by
  unfold Verify.addKeys
  rw [h e, r.raises]
  cases Dict.get? jar e with
  | none =>
    simp only
    split
    · exact h.set r.inj e ks
    · split
      · exact h
      · exact h.set r.inj e ks
  | some old =>
    simp only
    split
    · exact h
    · exact h.set r.inj e _

theorem Renamed.verifyLoop (r : Renamed π F F' V V') (n : Nat) : ∀ (ds : List Doc) (jar jar' : KeyJar) (ves : List Payload), SameKeys π jar jar' →
    (verifyLoop V'.L n (ds.map (renD π)) jar' (ves.map (renP π))).1 = (verifyLoop V.L n ds jar ves).1.map (List.map (renP π)) ∧
    SameKeys π (verifyLoop V.L n ds jar ves).2 (verifyLoop V'.L n (ds.map (renD π)) jar' (ves.map (renP π))).2
  | [], jar, jar', ves, h => ⟨rfl, h⟩
  | none :: ds, jar, jar', ves, h => r.verifyLoop n ds jar jar' ves h
  | some j :: ds, jar, jar', ves, h => by
    simp only [List.map_cons]
    unfold Verify.verifyLoop
    simp only [renD, Option.map_some]
    rw [r.verifyKeys h j, show V'.L.verifies (renJ π j) = V.L.verifies j from funext (r.verifies j), show (renJ π j).payload.jwks = j.payload.jwks from rfl, List.length_map]
    split
    · exact ⟨rfl, h⟩
    · split
      · have e : ves.map (renP π) ++ [(renJ π j).payload] = (ves ++ [j.payload]).map (renP π) := by simp [renJ]
        rw [e]
        cases j.payload.jwks with
        | none =>
          simp only
          split
          · exact ⟨rfl, h⟩
          · exact r.verifyLoop n ds jar jar' _ h
        | some ks =>
          simp only
          exact r.verifyLoop n ds _ _ _ (r.addKeys h _ _)
      · exact ⟨rfl, h⟩

/-- What constraint checking makes of statements without naming constraints does not depend on the names. -/
theorem unnamed_restrict : ∀ (ps : List Payload) (cur : Int) (b : Bool), (∀ p ∈ ps, ∀ c, p.constraints = some c → c.naming = none) →
    Constraints.restrictLoop ((ps.map (renP π)).map toC) cur b ⟨[], []⟩ = Constraints.restrictLoop (ps.map toC) cur b ⟨[], []⟩ ∧
    ∀ acc, Constraints.restrictLoop (ps.map toC) cur b ⟨[], []⟩ = .ok (some acc) → acc = ⟨[], []⟩
  | [], _, _, _ => ⟨rfl, fun acc h => by cases h; rfl⟩
  | p :: ps, cur, b, h => by
    have ih := fun c => unnamed_restrict ps c b fun q hq => h q (List.mem_cons_of_mem _ hq)
    have h0 := h p List.mem_cons_self
    simp only [List.map_cons]
    unfold Constraints.restrictLoop
    show (match p.constraints with | none => _ | some c => _) = _ ∧ _
    rw [show (toC p).constraints = p.constraints from rfl]
    cases hc : p.constraints with
    | none => simp only; exact ih _
    | some c =>
      have hn := h0 c hc
      simp only [Constraints.updateNaming, hn]
      split
      · exact ⟨rfl, fun acc h => by cases h⟩
      · exact ih _

theorem unnamed_meets {ps : List Payload} (h : ∀ p ∈ ps, ∀ c, p.constraints = some c → c.naming = none) (leaf : Payload) : meets (ps.map (renP π)) (renP π leaf) = meets ps leaf := by
  unfold Verify.meets Constraints.meetsRestrictions
  obtain ⟨h1, h2⟩ := unnamed_restrict (π := π) ps 0 false h
  rw [h1]
  cases hx : Constraints.restrictLoop (ps.map toC) 0 false ⟨[], []⟩ with
  | error e => rfl
  | ok o =>
    cases o with
    | none => rfl
    | some acc => rw [h2 acc hx]; rfl

theorem renP_expires : ∀ (ps : List Payload) (x : Int), expiresLoop (ps.map (renP π)) x = expiresLoop ps x
  | [], _ => rfl
  | p :: ps, x => by
    simp only [List.map_cons]
    unfold Verify.expiresLoop
    rw [show (renP π p).getExp = p.getExp from rfl]
    cases p.getExp with
    | error e => rfl
    | ok y =>
      show (if x ≥ 0 then (if y < x then _ else _) else _) = (if x ≥ 0 then (if y < x then _ else _) else _)
      rw [renP_expires ps x, renP_expires ps y]

theorem verifyLoop_from {L : Lib} {n : Nat} : ∀ (ds : List Doc) (jar : KeyJar) (ves out : List Payload), (verifyLoop L n ds jar ves).1 = .ok out → ∀ p ∈ out, p ∈ ves ∨ ∃ j, some j ∈ ds ∧ p = j.payload
  | [], jar, ves, out, h, p, hp => by cases h; exact Or.inl hp
  | none :: ds, jar, ves, out, h, p, hp => by
    rcases verifyLoop_from ds jar ves out h p hp with h | ⟨j, h1, h2⟩
    · exact Or.inl h
    · exact Or.inr ⟨j, List.mem_cons_of_mem _ h1, h2⟩
  | some j :: ds, jar, ves, out, h, p, hp => by
    have key : ∀ jar0, (verifyLoop L n ds jar0 (ves ++ [j.payload])).1 = .ok out → p ∈ ves ∨ ∃ j', some j' ∈ some j :: ds ∧ p = j'.payload := by
      intro jar0 h0
      rcases verifyLoop_from ds jar0 _ out h0 p hp with h | ⟨j', h1, h2⟩
      · rcases List.mem_append.1 h with h | h
        · exact Or.inl h
        · exact Or.inr ⟨j, List.mem_cons_self, List.mem_singleton.1 h⟩
      · exact Or.inr ⟨j', List.mem_cons_of_mem _ h1, h2⟩
    unfold Verify.verifyLoop at h
    simp only at h
    split at h
    · cases h
    · split at h
      · split at h
        · split at h
          · cases h
          · exact key _ h
        · exact key _ h
      · cases h

theorem Renamed.verifyTrustChain (r : Renamed π F F' V V') {jar jar' : KeyJar} (h : SameKeys π jar jar') (ds : List Doc) (hu : ∀ j, some j ∈ ds → Unnamed j) :
    (verifyTrustChain V'.L jar' (ds.map (renD π))).1 = (verifyTrustChain V.L jar ds).1.map (List.map (renP π)) ∧ SameKeys π (verifyTrustChain V.L jar ds).2 (verifyTrustChain V'.L jar' (ds.map (renD π))).2 := by
  cases ds with
  | nil => exact ⟨rfl, h⟩
  | cons d ds =>
    simp only [List.map_cons]
    unfold Verify.verifyTrustChain
    simp only
    have ht : trustedAnchor jar' (renD π d) = trustedAnchor jar d := by
      cases d with
      | none => rfl
      | some j =>
        show Except.ok (Dict.has jar' (π j.payload.iss)) = Except.ok (Dict.has jar j.payload.iss)
        unfold Dict.has
        rw [h]
    rw [ht]
    rcases trustedAnchor jar d with e | b
    · exact ⟨rfl, h⟩
    cases b with
    | false => exact ⟨rfl, h⟩
    | true =>
      simp only
      have hl := r.verifyLoop ((d :: ds).length - 1) (d :: ds) jar jar' [] h
      have hfr := verifyLoop_from (L := V.L) (n := (d :: ds).length - 1) (d :: ds) jar []
      simp only [List.map_cons, List.map_nil] at hl
      have hn : (renD π d :: ds.map (renD π)).length = (d :: ds).length := by simp
      rw [hn]
      generalize Verify.verifyLoop V.L ((d :: ds).length - 1) (d :: ds) jar [] = q at hl hfr ⊢
      generalize Verify.verifyLoop V'.L ((d :: ds).length - 1) (renD π d :: ds.map (renD π)) jar' [] = q' at hl ⊢
      obtain ⟨q, j1⟩ := q
      obtain ⟨q', j2⟩ := q'
      simp only at hl hfr
      obtain ⟨rfl, hj⟩ := hl
      cases q with
      | error e => exact ⟨rfl, hj⟩
      | ok ves =>
        simp only [Except.map]
        rw [List.getLast?_map, ← List.map_dropLast]
        cases ves.getLast? with
        | none => exact ⟨rfl, hj⟩
        | some leaf =>
          simp only [Option.map_some]
          rw [unnamed_meets]
          · cases meets ves.dropLast leaf with
            | error e => exact ⟨rfl, hj⟩
            | ok b => cases b <;> exact ⟨rfl, hj⟩
          · intro p hp c hc
            rcases hfr ves rfl p (List.dropLast_subset _ hp) with h | ⟨j, h1, rfl⟩
            · cases h
            · exact hu j h1 c hc

theorem Renamed.verifyChain (r : Renamed π F F' V V') {jar jar' : KeyJar} (h : SameKeys π jar jar') (ds : List Doc) (hu : ∀ j, some j ∈ ds → Unnamed j) :
    (verifyChain V'.L jar' (ds.map (renD π))).1 = (verifyChain V.L jar ds).1.map (Option.map (renTC π)) ∧ SameKeys π (verifyChain V.L jar ds).2 (verifyChain V'.L jar' (ds.map (renD π))).2 := by
  have hl := r.verifyTrustChain h ds hu
  unfold Verify.verifyChain
  generalize Verify.verifyTrustChain V.L jar ds = q at hl ⊢
  generalize Verify.verifyTrustChain V'.L jar' (ds.map (renD π)) = q' at hl ⊢
  obtain ⟨q, j1⟩ := q
  obtain ⟨q', j2⟩ := q'
  simp only at hl
  obtain ⟨rfl, hj⟩ := hl
  rcases q with e | _ | ⟨p, ps⟩
  · exact ⟨rfl, hj⟩
  · exact ⟨rfl, hj⟩
  · have he : expiresAt (renP π p :: ps.map (renP π)) = expiresAt (p :: ps) := renP_expires (p :: ps) (-1)
    simp only [Except.map, List.map_cons, he]
    cases expiresAt (p :: ps) with
    | error e => exact ⟨rfl, hj⟩
    | ok x => 
      refine ⟨?_, hj⟩
      simp [renTC, renP]

theorem Renamed.verifyChains (r : Renamed π F F' V V') : ∀ (cs : List (List Doc)) (jar jar' : KeyJar), SameKeys π jar jar' → (∀ c ∈ cs, ∀ j, some j ∈ c → Unnamed j) →
    (verifyChains V'.L (cs.map (List.map (renD π))) jar').1 = (verifyChains V.L cs jar).1.map (List.map (renTC π)) ∧
    SameKeys π (verifyChains V.L cs jar).2 (verifyChains V'.L (cs.map (List.map (renD π))) jar').2
  | [], _, _, h, _ => ⟨rfl, h⟩
  | c :: cs, jar, jar', h, hu => by
    have hl := r.verifyChain h c (hu c List.mem_cons_self)
    have ih := fun jar jar' h => r.verifyChains cs jar jar' h fun c hc => hu c (List.mem_cons_of_mem _ hc)
    simp only [List.map_cons]
    unfold Chains.verifyChains
    generalize Verify.verifyChain V.L jar c = q at hl ⊢
    generalize Verify.verifyChain V'.L jar' (c.map (renD π)) = q' at hl ⊢
    obtain ⟨q, j1⟩ := q
    obtain ⟨q', j2⟩ := q'
    simp only at hl
    obtain ⟨rfl, hj⟩ := hl
    cases q with
    | error e => exact ⟨rfl, hj⟩
    | ok o =>
      have ih := ih j1 j2 hj
      simp only [Except.map]
      generalize Chains.verifyChains V.L cs j1 = q at ih ⊢
      generalize Chains.verifyChains V'.L (cs.map (List.map (renD π))) j2 = q' at ih ⊢
      obtain ⟨q, j3⟩ := q
      obtain ⟨q', j4⟩ := q'
      simp only at ih
      obtain ⟨rfl, hj⟩ := ih
      cases q with
      | error e => exact ⟨rfl, hj⟩
      | ok tcs => 
        refine ⟨?_, hj⟩
        cases o <;> rfl

theorem renTC_apply (E : SetEnum Val) (K : SetEnum String) (tc : TrustChain) : applyToChain E K (renTC π tc) = (applyToChain E K tc).map (renTC π) := by
  unfold applyToChain
  simp only [renTC, List.getLast?_map]
  cases tc.verified.getLast? with
  | none => rfl
  | some leaf =>
    simp only [Option.map_some]
    rw [show (renP π leaf).metadata = leaf.metadata from rfl]
    cases leaf.metadata with
    | none => rfl
    | some md =>
      simp only [List.length_map]
      split
      · have : ((tc.verified.map (renP π)).dropLast.map toP) = tc.verified.dropLast.map toP := by
          rw [← List.map_dropLast, List.map_map]
          rfl
        rw [this, show toP (renP π leaf) = toP leaf from rfl]
        cases Policy.callPolicy E K (tc.verified.dropLast.map toP) (toP leaf) none <;> rfl
      · cases md.get? "" <;> rfl

theorem renTC_policies (E : SetEnum Val) (K : SetEnum String) : ∀ (tcs : List TrustChain), applyPolicies E K (tcs.map (renTC π)) = (applyPolicies E K tcs).map (List.map (renTC π))
  | [] => rfl
  | tc :: tcs => by
    simp only [List.map_cons]
    unfold applyPolicies
    rw [renTC_apply, renTC_policies E K tcs]
    cases applyToChain E K tc with
    | error e => rfl
    | ok tc' => cases applyPolicies E K tcs <;> rfl

/-- C233 in full: in a federation that differs from another one in the names only, an entity resolves to the same trust chains but for the names, or does not resolve in either. -/
def C233_full : Prop :=
  ∀ (π : String → String) (F F' : Federation) (V V' : Env) (st st' : State) (h h' : List FRun) (entity stopAt : String),
    Renamed π F F' V V' → Federation.Unnamed F → Aged F V st h → Aged F' V' st' h' → SameKeys π st.jar st'.jar → F.Dated → F'.Dated → Settles F V entity →
    (getVerified V' st' (π entity) (π stopAt)).1.toOption = (getVerified V st entity stopAt).1.toOption.map (List.map (renTC π))

theorem Renamed.settles (r : Renamed π F F' V V') {entity : String} (h : Settles F V entity) : Settles F' V' (π entity) := by
  intro j x hj hx
  rw [r.config] at hj
  cases hc : F.config entity with
  | error e => rw [hc] at hj; cases hj
  | ok d =>
    cases d with
    | none => rw [hc] at hj; cases hj
    | some j0 =>
      rw [hc] at hj
      cases hj
      have := h j0 x hc hx
      rw [r.now, r.delta, r.current]
      exact this

/-- C233 for names without exclamation marks. The two processes may have resolved different entities before. Missing: other names, see `C233_collision_violation`. -/
theorem C233_renamed_partial (π : String → String) (F F' : Federation) (V V' : Env) (st st' : State) (h h' : List FRun) (entity stopAt : String)
    (r : Renamed π F F' V V') (hu : Federation.Unnamed F) (w : Aged F V st h) (w' : Aged F' V' st' h') (hj : SameKeys π st.jar st'.jar) (hd : F.Dated) (hd' : F'.Dated) (hs : Settles F V entity)
    (hp : F.PlainHints) (hp' : F'.PlainHints) (he : Plain entity) (he' : Plain (π entity)) :
    (getVerified V' st' (π entity) (π stopAt)).1.toOption = (getVerified V st entity stopAt).1.toOption.map (List.map (renTC π)) := by
  have i1 := w.ideal hd hp he hs stopAt
  have i2 := w'.ideal hd' hp' he' (r.settles hs) (π stopAt)
  rw [r.fuel, r.collect] at i2
  rw [← i1] at i2
  unfold getVerified
  rw [r.fuel]
  generalize hq : Collect.collect V.L.toCrypto V.P V.W V.fuel st.coll entity stopAt = q at i1 i2 ⊢
  generalize Collect.collect V'.L.toCrypto V'.P V'.W V.fuel st'.coll (π entity) (π stopAt) = q' at i2 ⊢
  obtain ⟨q, c1⟩ := q
  obtain ⟨q', c2⟩ := q'
  cases q with
  | error e =>
    cases q' with
    | error e' => rfl
    | ok x => cases i2
  | ok x =>
    obtain ⟨f, ec⟩ := x
    have := toOption_some i2
    simp only at this
    subst this
    simp only
    have hx : Collect.idealCollect V.L.toCrypto V.P F V.W.now V.fuel entity stopAt = some (f, ec) := i1.symm
    have hall : AllIn Unnamed f ∧ Unnamed ec := by
      unfold idealCollect at hx
      cases hc : Collect.publishedConfig V.L.toCrypto F V.W.now entity with
      | none => rw [hc] at hx; cases hx
      | some j =>
        rw [hc] at hx
        simp only at hx
        cases ht : idealTree V.L.toCrypto V.P F V.W.now stopAt V.fuel entity j.payload with
        | none => rw [ht] at hx; cases hx
        | some f' =>
          rw [ht] at hx
          cases hx
          exact ⟨unnamed_tree hu stopAt _ _ _ _ ht, hu.config _ _ (publishedConfig_iff.1 hc).1⟩
    have hv := r.verifyChains ((tree2chains f).map fun c => c.map some ++ [some ec]) st.jar st'.jar hj (by
      intro c hc j hjc
      obtain ⟨c0, hc0, rfl⟩ := List.mem_map.1 hc
      rcases List.mem_append.1 hjc with h | h
      · obtain ⟨j', hj', e⟩ := List.mem_map.1 h
        cases e
        exact hall.1.chains c0 hc0 j hj'
      · cases List.mem_singleton.1 h
        exact hall.2)
    have hm : ((tree2chains f).map fun c => c.map some ++ [some ec]).map (List.map (renD π)) = (tree2chains (renF π f)).map fun c => c.map some ++ [some (renJ π ec)] := by
      rw [renF_chains, List.map_map, List.map_map]
      apply List.map_congr_left
      intro c _
      simp [renD, Function.comp_def]
    rw [hm] at hv
    generalize Chains.verifyChains V.L ((tree2chains f).map fun c => c.map some ++ [some ec]) st.jar = q at hv ⊢
    generalize Chains.verifyChains V'.L ((tree2chains (renF π f)).map fun c => c.map some ++ [some (renJ π ec)]) st'.jar = q' at hv ⊢
    obtain ⟨q, c3⟩ := q
    obtain ⟨q', c4⟩ := q'
    simp only at hv
    obtain ⟨rfl, -⟩ := hv
    cases q with
    | error e => rfl
    | ok tcs =>
      simp only [Except.map]
      rw [r.E, r.K, renTC_policies]
      cases applyPolicies V.E V.K tcs <;> rfl
end

namespace Ex233
/-- Two names change places. -/
def swap (a b : String) (s : String) : String := if s = a then b else if s = b then a else s
theorem swap_swap (a b s : String) : swap a b (swap a b s) = s := by
  unfold swap
  split
  · rename_i h
    split
    · rename_i h'; rw [h, h']
    · rw [if_pos rfl, h]
  · rename_i h
    split
    · rename_i h'; rw [if_pos rfl, h']
    · rfl
theorem swap_inj (a b : String) : ∀ s t, swap a b s = swap a b t → s = t := by
  intro s t h
  rw [← swap_swap a b s, h, swap_swap]

/-- Any signature will do. -/
def L : Lib := { usable := fun _ _ => true, verifies := fun _ _ => true, current := notExpired, unknownRaises := true }
/-- A federation given by the hints of its members; each authority answers about everyone. -/
def fed (hints : String → Option (List String)) : Federation where
  config k := .ok (some (Ex31.conf k (hints k)))
  fetch _ a e := .ok (some (Ex31.about a e))
/-- The same one, with other names. -/
def other (π : String → String) (hints : String → Option (List String)) : Federation := fed fun k => (hints (π k)).map (List.map π)
def V (F : Federation) : Env := { L := L, P := { anchors := [] }, W := F.at 0, fuel := 10, E := SetEnum.insertion, K := SetEnum.insertion }

theorem dated (hints : String → Option (List String)) : (fed hints).Dated := by intro k j h; cases h; exact ⟨_, rfl⟩
theorem unnamed (hints : String → Option (List String)) : Federation.Unnamed (fed hints) := ⟨by intro a j h c hc; cases h; exact (nomatch hc), by intro ep a e j h c hc; cases h; exact (nomatch hc)⟩
theorem renamed {π : String → String} (hπ : ∀ s, π (π s) = s) (hints : String → Option (List String)) : Renamed π (fed hints) (other π hints) (V (fed hints)) (V (other π hints)) where
  inj := by intro s t h; rw [← hπ s, h, hπ]
  config := by
    intro a
    show Except.ok (some (Ex31.conf (π a) ((hints (π (π a))).map (List.map π)))) = _
    rw [hπ]
    rfl
  fetch _ _ _ := rfl
  usable _ _ := rfl
  verifies _ _ := rfl
  current _ _ := rfl
  raises := rfl
  delta := rfl
  anchors _ := ⟨(nomatch ·), (nomatch ·)⟩
  now := rfl
  fuel := rfl
  E := rfl
  K := rfl
theorem aged (hints : String → Option (List String)) (jar : KeyJar) : Aged (fed hints) (V (fed hints)) { jar := jar } [] where
  world := rfl
  steady := Federation.steady_notExpired (fun _ _ => rfl) (show (0 : Int) ≤ 300 by decide) _ _
  collected := rfl
  order := List.Pairwise.nil
  past := by intro r hr; cases hr
  plain := by intro r hr; cases hr
theorem settled (hints : String → Option (List String)) (e : String) : Settles (fed hints) (V (fed hints)) e := by
  intro j x hj hx
  cases hj
  cases hx
  left
  rfl

/-- `leaf` is below `z` and `q`; `x!!y` is above `z` and `x` above `q`. -/
def evil : String → Option (List String)
  | "leaf" => some ["z", "q"]
  | "z" => some ["x!!y"]
  | "q" => some ["x"]
  | _ => none
/-- `q` gets the name `y!!z`. -/
def worse : String → String := swap "q" "y!!z"
def jar : KeyJar := [("x", [1]), ("x!!y", [1])]
theorem jar_same : SameKeys worse jar jar := by
  intro e
  unfold worse swap jar
  split
  · rename_i h; subst h; decide
  · split
    · rename_i h; subst h; decide
    · rfl

def good : String → Option (List String)
  | "leaf" => some ["z", "q"]
  | "z" => some ["ta"]
  | "q" => some ["ta"]
  | _ => none
/-- `leaf` and `z` change places. -/
def fair : String → String := swap "leaf" "z"
def jar2 : KeyJar := [("ta", [1])]
theorem jar2_same : SameKeys fair jar2 jar2 := by
  intro e
  unfold fair swap jar2
  split
  · rename_i h; subst h; decide
  · split
    · rename_i h; subst h; decide
    · rfl
theorem good_cases (k : String) : good k = none ∨ good k = some ["z", "q"] ∨ good k = some ["ta"] := by
  unfold good
  split
  · exact Or.inr (Or.inl rfl)
  · exact Or.inr (Or.inr rfl)
  · exact Or.inr (Or.inr rfl)
  · exact Or.inl rfl
theorem good_plain : (fed good).PlainHints := by
  intro k j hs h hh
  cases h
  simp only [Ex31.conf] at hh
  rcases good_cases k with e | e | e
  · rw [e] at hh; exact nomatch hh
  · rw [e] at hh; cases hh; decide
  · rw [e] at hh; cases hh; decide
theorem other_plain : (other fair good).PlainHints := by
  intro k j hs h hh
  cases h
  simp only [Ex31.conf] at hh
  rcases good_cases (fair k) with e | e | e
  · rw [e] at hh; exact nomatch hh
  · rw [e] at hh; cases hh; decide
  · rw [e] at hh; cases hh; decide
end Ex233

/-- C233 does not hold: when `q` is called `y!!z` instead, what the cache has as the statement of `x` about it is that of `x!!y` about `z`, and `leaf` resolves to `x!!y` twice, not to `x!!y` and `x`. -/
theorem C233_collision_violation : ¬ C233_full := by
  intro h
  have := h Ex233.worse (Ex233.fed Ex233.evil) (Ex233.other Ex233.worse Ex233.evil) (Ex233.V (Ex233.fed Ex233.evil)) (Ex233.V (Ex233.other Ex233.worse Ex233.evil)) { jar := Ex233.jar } { jar := Ex233.jar } [] [] "leaf" ""
    (Ex233.renamed (Ex233.swap_swap _ _) _) (Ex233.unnamed _) (Ex233.aged _ _) (Ex233.aged _ _) Ex233.jar_same (Ex233.dated _) (Ex233.dated _) (Ex233.settled _ _)
  have := congrArg (Option.map (List.map (·.anchor))) this
  revert this
  decide +kernel

namespace Ex233
/-- The case C233 is about: `leaf`, which is below `z` and `q`, is called `z` and `z` is called `leaf`. -/
example : (getVerified (V (other fair good)) { jar := jar2 } "z").1.toOption = (getVerified (V (fed good)) { jar := jar2 } "leaf").1.toOption.map (List.map (renTC fair)) :=
  C233_renamed_partial fair (fed good) (other fair good) (V (fed good)) (V (other fair good)) { jar := jar2 } { jar := jar2 } [] [] "leaf" "" (renamed (swap_swap _ _) _) (unnamed _) (aged _ _) (aged _ _) jar2_same (dated _)
    (dated _) (settled _ _) good_plain other_plain (by decide) (by decide)
example : (getVerified (V (fed good)) { jar := jar2 } "leaf").1.toOption.map (List.map fun tc => (tc.issPath, tc.exp)) = some [(["leaf", "z", "ta"], 10000), (["leaf", "q", "ta"], 10000)] := by decide +kernel
example : (getVerified (V (other fair good)) { jar := jar2 } "z").1.toOption.map (List.map fun tc => (tc.issPath, tc.exp)) = some [(["z", "leaf", "ta"], 10000), (["z", "q", "ta"], 10000)] := by decide +kernel
end Ex233

end Fed.Chains
