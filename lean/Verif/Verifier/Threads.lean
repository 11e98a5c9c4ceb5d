import Verif.Verifier.Props
/-
Several threads verifying trust chains. All of them use the key jar of the federation entity, and add to it. `verify_trust_chain`,
/repo/src/fedservice/entity/function/verifier.py 43-103, is cut up into its accesses to that key jar; other threads may come in
between any two of them. The methods of the key jar are taken to be atomic (they belong to cryptojwt).
-/
namespace Fed.Verify.Threads
open Fed Fed.Verify

/-- How far a verification has come: about to look for the anchor (verifier.py 54); about to look for the keys of the next of the
statements `ds`, with the statements `ves` verified (60-65); having verified `p`, which lists `ks`, about to look for the keys held
already (82-83); about to add the keys `new` (85, 95); done. -/
inductive Pc
  | start
  | loop (ds : List Doc) (ves : List Payload)
  | compare (p : Payload) (ks : List Key) (ds : List Doc) (ves : List Payload)
  | add (p : Payload) (new : List Key) (ds : List Doc) (ves : List Payload)
  | done (r : Except PyErr (Option TrustChain))
deriving DecidableEq

/-- With the answer whether the anchor is known (verifier.py 54-60). -/
def begun (jar : KeyJar) : List Doc → Pc
  | [] => .done (.error .indexError)
  | d :: ds =>
    match trustedAnchor jar d with
    | .error e => .done (.error e)
    | .ok false => .done (.ok none)
    | .ok true => .loop (d :: ds) []

/-- With the keys of the issuer of `j` (verifier.py 65-81); `n` = number of statements − 1. -/
def checked (L : Lib) (n : Nat) (jar : KeyJar) (j : Jws) (ds : List Doc) (ves : List Payload) : Pc :=
  let keys := verifyKeys L jar j
  if keys.isEmpty then .done (.error .missingKey)
  else if keys.any (L.verifies j) then
    match j.payload.jwks with
    | none => if ves.length ≠ n then .done (.error .valueError) else .loop ds (ves ++ [j.payload])
    | some ks => .compare j.payload ks ds ves
  else .done (.error .badSignature)

/-- With the keys held for the subject already (verifier.py 82-95). -/
def compared (L : Lib) (jar : KeyJar) (p : Payload) (ks : List Key) (ds : List Doc) (ves : List Payload) : Pc :=
  match Dict.get? jar p.sub with
  | none => if L.unknownRaises then .add p ks ds ves else if ks.isEmpty then .loop ds (ves ++ [p]) else .add p ks ds ves
  | some old =>
    let new := ks.filter fun k => decide (k ∉ old)
    if new.isEmpty then .loop ds (ves ++ [p]) else .add p new ds ves

/-- What comes after the last statement (verifier.py 100-103, 115-138); the key jar is not used any more. -/
def finished (chain : List Doc) (ves : List Payload) : Except PyErr (Option TrustChain) :=
  match ves with
  | [] => .ok none
  | p :: ps =>
    match meets (p :: ps).dropLast ((p :: ps).getLast (by simp)) with
    | .error e => .error e
    | .ok false => .ok none
    | .ok true =>
      match expiresAt (p :: ps) with
      | .error e => .error e
      | .ok x => .ok (some ⟨p.iss, ((p :: ps).map (·.iss)).reverse, x, p :: ps, chain, []⟩)

/-- One access of the verification of `chain` to the key jar (verifier.py 54, 65, 83, 85 and 95). -/
def access (L : Lib) (chain : List Doc) (jar : KeyJar) : Pc → Pc × KeyJar
  | .start => (begun jar chain, jar)
  | .loop [] ves => (.done (finished chain ves), jar)
  | .loop (none :: ds) ves => (.loop ds ves, jar)
  | .loop (some j :: ds) ves => (checked L (chain.length - 1) jar j ds ves, jar)
  | .compare p ks ds ves => (compared L jar p ks ds ves, jar)
  | .add p new ds ves => (.loop ds (ves ++ [p]), jar.set p.sub (jar.keysOf p.sub ++ new))
  | .done r => (.done r, jar)

/-- The process: the key jar and how far each verification has come. There is no bound on how many there are; one that gets no turn
has not begun. -/
structure Sys where
  jar : KeyJar
  pc : Nat → Pc

/-- Verification number `i` gets a turn; it is about the chain `chains i`. -/
def turn (L : Lib) (chains : Nat → List Doc) (s : Sys) (i : Nat) : Sys :=
  let r := access L (chains i) s.jar (s.pc i)
  { jar := r.2, pc := fun k => if k = i then r.1 else s.pc k }

/-- All the turns of a schedule, from a key jar and nothing begun. -/
def run (L : Lib) (chains : Nat → List Doc) (jar : KeyJar) (ts : List Nat) : Sys :=
  ts.foldl (turn L chains) ⟨jar, fun _ => .start⟩

/-! ### The steps together are the function of the sequential model -/

/-- A verification that is not interrupted. -/
def alone (L : Lib) (chain : List Doc) : Nat → Pc × KeyJar → Pc × KeyJar
  | 0, r => r
  | n + 1, r => alone L chain n (access L chain r.2 r.1)

theorem alone_done (L : Lib) (chain : List Doc) (r : Except PyErr (Option TrustChain)) : ∀ (n : Nat) (jar : KeyJar),
    alone L chain n (.done r, jar) = (.done r, jar)
  | 0, _ => rfl
  | n + 1, jar => alone_done L chain r n jar

/-- What the loop ends with. -/
def outcome (chain : List Doc) : Except PyErr (List Payload) × KeyJar → Pc × KeyJar
  | (.error e, jar) => (.done (.error e), jar)
  | (.ok ves, jar) => (.done (finished chain ves), jar)

theorem alone_loop (L : Lib) (chain : List Doc) : ∀ (ds : List Doc) (jar : KeyJar) (ves : List Payload) (m : Nat),
    alone L chain (3 * ds.length + 1 + m) (.loop ds ves, jar) = outcome chain (verifyLoop L (chain.length - 1) ds jar ves)
  | [], jar, ves, m => by
    rw [show 3 * ([] : List Doc).length + 1 + m = m + 1 by simp; omega]
    exact alone_done L chain _ m jar
  | none :: ds, jar, ves, m => by
    rw [show 3 * ((none : Doc) :: ds).length + 1 + m = (3 * ds.length + 1 + (m + 2)) + 1 by simp only [List.length_cons]; omega]
    exact alone_loop L chain ds jar ves _
  | some j :: ds, jar, ves, m => by
    rw [show 3 * (some j :: ds).length + 1 + m = (3 * ds.length + 1 + (m + 2)) + 1 by simp only [List.length_cons]; omega]
    show alone L chain (3 * ds.length + 1 + (m + 2)) (checked L (chain.length - 1) jar j ds ves, jar) = _
    rw [verifyLoop]
    unfold checked
    simp only
    by_cases he : (verifyKeys L jar j).isEmpty = true
    · rw [if_pos he, if_pos he]; exact alone_done _ _ _ _ _
    · rw [if_neg he, if_neg he]
      by_cases hv : (verifyKeys L jar j).any (L.verifies j) = true
      · rw [if_pos hv, if_pos hv]
        cases hj : j.payload.jwks with
        | none =>
          simp only
          by_cases hn : ves.length ≠ chain.length - 1
          · rw [if_pos hn, if_pos hn]; exact alone_done _ _ _ _ _
          · rw [if_neg hn, if_neg hn]; exact alone_loop L chain ds jar _ _
        | some ks =>
          simp only
          rw [show 3 * ds.length + 1 + (m + 2) = (3 * ds.length + 1 + (m + 1)) + 1 by omega]
          show alone L chain (3 * ds.length + 1 + (m + 1)) (compared L jar j.payload ks ds ves, jar) = _
          have hadd : ∀ new : List Key, alone L chain (3 * ds.length + 1 + (m + 1)) (.add j.payload new ds ves, jar) =
              outcome chain (verifyLoop L (chain.length - 1) ds
                (jar.set j.payload.sub (jar.keysOf j.payload.sub ++ new)) (ves ++ [j.payload])) := by
            intro new
            rw [show 3 * ds.length + 1 + (m + 1) = (3 * ds.length + 1 + m) + 1 by omega]
            exact alone_loop L chain ds _ _ _
          unfold compared addKeys
          cases hg : Dict.get? jar j.payload.sub with
          | none =>
            have h0 : jar.keysOf j.payload.sub = [] := by simp [KeyJar.keysOf, hg]
            simp only
            split
            · rw [hadd, h0]; rfl
            · split
              · exact alone_loop L chain ds jar _ _
              · rw [hadd, h0]; rfl
          | some old =>
            have h0 : jar.keysOf j.payload.sub = old := by simp [KeyJar.keysOf, hg]
            simp only
            split
            · exact alone_loop L chain ds jar _ _
            · rw [hadd, h0]
      · rw [if_neg hv, if_neg hv]; exact alone_done _ _ _ _ _

/-- Three turns for each statement and two more, and a verification that nobody interrupts has the result, and has made of the key
jar, what it has and makes in the sequential model. -/
theorem alone_eq (L : Lib) (chain : List Doc) (jar : KeyJar) (m : Nat) :
    alone L chain (3 * chain.length + 2 + m) (.start, jar) =
      (.done (verifyChain L jar chain).1, (verifyChain L jar chain).2) := by
  rw [show 3 * chain.length + 2 + m = (3 * chain.length + 1 + m) + 1 by omega]
  show alone L chain (3 * chain.length + 1 + m) (begun jar chain, jar) = _
  unfold verifyChain verifyTrustChain begun
  cases chain with
  | nil => exact alone_done _ _ _ _ _
  | cons d ds =>
    simp only
    cases ht : trustedAnchor jar d with
    | error e => exact alone_done _ _ _ _ _
    | ok b =>
      cases b with
      | false => exact alone_done _ _ _ _ _
      | true =>
        simp only
        rw [alone_loop]
        generalize verifyLoop L ((d :: ds).length - 1) (d :: ds) jar [] = r
        obtain ⟨r1, jar'⟩ := r
        cases r1 with
        | error e => rfl
        | ok ves =>
          cases ves with
          | nil => rfl
          | cons p ps =>
            have hl : (p :: ps).getLast? = some ((p :: ps).getLast (by simp)) := List.getLast?_eq_some_getLast (by simp)
            simp only [outcome, finished, hl]
            cases meets (p :: ps).dropLast ((p :: ps).getLast (by simp)) with
            | error e => rfl
            | ok b =>
              cases b with
              | false => rfl
              | true =>
                simp only [if_true]
                cases expiresAt (p :: ps) <;> rfl

/-! ### What holds at any time -/

/-- `jar'` has all that `jar` has. -/
def Grows (jar jar' : KeyJar) : Prop :=
  (∀ e k, k ∈ jar.keysOf e → k ∈ jar'.keysOf e) ∧ ∀ e, Dict.has jar e = true → Dict.has jar' e = true

theorem Grows.refl (jar : KeyJar) : Grows jar jar := ⟨fun _ _ h => h, fun _ h => h⟩

theorem Grows.trans {a b c : KeyJar} (h : Grows a b) (h' : Grows b c) : Grows a c :=
  ⟨fun e k hk => h'.1 e k (h.1 e k hk), fun e he => h'.2 e (h.2 e he)⟩

theorem grows_set (jar : KeyJar) (e : String) (new : List Key) : Grows jar (jar.set e (jar.keysOf e ++ new)) := by
  refine ⟨fun q k hk => ?_, fun q hq => ?_⟩
  · rw [keysOf_set]
    split
    · rename_i h; subst h; exact List.mem_append_left _ hk
    · exact hk
  · simp only [Dict.has, Dict.get?_set] at hq ⊢
    split
    · rfl
    · exact hq

theorem access_grows (L : Lib) (chain : List Doc) (jar : KeyJar) (pc : Pc) : Grows jar (access L chain jar pc).2 := by
  cases pc with
  | start => exact Grows.refl _
  | loop ds ves => rcases ds with _ | ⟨_ | j, ds⟩ <;> exact Grows.refl _
  | compare p ks ds ves => exact Grows.refl _
  | add p new ds ves => exact grows_set _ _ _
  | done r => exact Grows.refl _

/-- A key the jar holds for the issuer of `j` verifies it. -/
def Signed (L : Lib) (jar : KeyJar) (j : Jws) : Prop :=
  ∃ k ∈ jar.keysOf j.payload.iss, L.usable j k = true ∧ L.verifies j k = true

theorem Signed.mono {L : Lib} {jar jar' : KeyJar} {j : Jws} (hg : Grows jar jar') (h : Signed L jar j) : Signed L jar' j := by
  obtain ⟨k, h1, h2⟩ := h
  exact ⟨k, hg.1 _ _ h1, h2⟩

/-- What is known when the documents `pre` at the beginning of the chain have been dealt with. -/
structure Behind (L : Lib) (jar : KeyJar) (chain pre : List Doc) (ves : List Payload) : Prop where
  anchor : ∃ j ds, chain = some j :: ds ∧ Dict.has jar j.payload.iss = true
  verified : ves = (statements pre).map (·.payload)
  signed : ∀ j ∈ statements pre, Signed L jar j
  keyless : ∀ p j q, statements pre = p ++ j :: q → j.payload.jwks = none → p.length = chain.length - 1
  held : ∀ j ∈ statements pre, ∀ ks, j.payload.jwks = some ks → ∀ k ∈ ks, k ∈ jar.keysOf j.payload.sub

theorem Behind.mono {L : Lib} {jar jar' : KeyJar} {chain pre : List Doc} {ves : List Payload} (hg : Grows jar jar')
    (h : Behind L jar chain pre ves) : Behind L jar' chain pre ves where
  anchor := by obtain ⟨j, ds, h1, h2⟩ := h.anchor; exact ⟨j, ds, h1, hg.2 _ h2⟩
  verified := h.verified
  signed := fun j hj => (h.signed j hj).mono hg
  keyless := h.keyless
  held := fun j hj ks hks k hk => hg.1 _ _ (h.held j hj ks hks k hk)

/-- What is known of a verification, by how far it has come. -/
def Inv (L : Lib) (jar : KeyJar) (chain : List Doc) : Pc → Prop
  | .start => True
  | .loop ds ves => ∃ pre, chain = pre ++ ds ∧ Behind L jar chain pre ves
  | .compare p ks ds ves => ∃ pre j, j.payload = p ∧ chain = pre ++ some j :: ds ∧ Behind L jar chain pre ves ∧ Signed L jar j ∧
      p.jwks = some ks
  | .add p new ds ves => ∃ pre j ks, j.payload = p ∧ chain = pre ++ some j :: ds ∧ Behind L jar chain pre ves ∧ Signed L jar j ∧
      p.jwks = some ks ∧ (∀ k ∈ ks, k ∈ new ∨ k ∈ jar.keysOf p.sub) ∧ ∀ k ∈ new, k ∈ ks
  | .done r => ∀ tc, r = .ok (some tc) → (verifyChain L jar chain).1 = .ok (some tc)

theorem Inv.mono {L : Lib} {jar jar' : KeyJar} {chain : List Doc} {pc : Pc} (hg : Grows jar jar') (h : Inv L jar chain pc) :
    Inv L jar' chain pc := by
  cases pc with
  | start => trivial
  | loop ds ves => obtain ⟨pre, h1, h2⟩ := h; exact ⟨pre, h1, h2.mono hg⟩
  | compare p ks ds ves => obtain ⟨pre, j, h1, h2, h3, h4, h5⟩ := h; exact ⟨pre, j, h1, h2, h3.mono hg, h4.mono hg, h5⟩
  | add p new ds ves =>
    obtain ⟨pre, j, ks, h1, h2, h3, h4, h5, h6, h7⟩ := h
    exact ⟨pre, j, ks, h1, h2, h3.mono hg, h4.mono hg, h5, fun k hk => (h6 k hk).imp id (hg.1 _ _), h7⟩
  | done r => exact fun tc htc => verifyChain_mono hg.1 hg.2 (h tc htc)

theorem statements_snoc (pre : List Doc) (j : Jws) : statements (pre ++ [some j]) = statements pre ++ [j] := by
  simp [statements]

theorem statements_snoc_none (pre : List Doc) : statements (pre ++ [none]) = statements pre := by
  simp [statements]

/-- One more statement. -/
theorem Behind.snoc {L : Lib} {jar : KeyJar} {chain pre ds : List Doc} {ves : List Payload} {j : Jws}
    (hb : Behind L jar chain pre ves) (hs : Signed L jar j)
    (hn : j.payload.jwks = none → ves.length = chain.length - 1)
    (hk : ∀ ks, j.payload.jwks = some ks → ∀ k ∈ ks, k ∈ jar.keysOf j.payload.sub) :
    Behind L jar chain (pre ++ [some j]) (ves ++ [j.payload]) where
  anchor := hb.anchor
  verified := by rw [statements_snoc, hb.verified]; simp
  signed := by
    intro i hi
    rw [statements_snoc, List.mem_append, List.mem_singleton] at hi
    rcases hi with hi | rfl
    · exact hb.signed i hi
    · exact hs
  keyless := by
    intro p i q e hi
    rw [statements_snoc] at e
    rcases List.eq_nil_or_concat q with rfl | ⟨q', x, rfl⟩
    · obtain ⟨h1, h2⟩ := List.append_inj' e rfl
      simp only [List.cons.injEq, and_true] at h2
      subst h2
      rw [← hn hi, hb.verified, List.length_map, h1]
    · have e' : statements pre ++ [j] = (p ++ i :: q') ++ [x] := by rw [e]; simp
      obtain ⟨h1, h2⟩ := List.append_inj' e' rfl
      exact hb.keyless p i q' h1 hi
  held := by
    intro i hi ks hks k hk'
    rw [statements_snoc, List.mem_append, List.mem_singleton] at hi
    rcases hi with hi | rfl
    · exact hb.held i hi ks hks k hk'
    · exact hk ks hks k hk'

/-- What was verified to the end is a chain that the sequential model accepts. -/
theorem finished_ok {L : Lib} {jar : KeyJar} {chain : List Doc} {ves : List Payload} {tc : TrustChain}
    (hb : Behind L jar chain chain ves) (h : finished chain ves = .ok (some tc)) :
    (verifyChain L jar chain).1 = .ok (some tc) := by
  cases ves with
  | nil => cases h
  | cons p ps =>
    unfold finished at h
    simp only at h
    cases hm : meets (p :: ps).dropLast ((p :: ps).getLast (by simp)) with
    | error e => rw [hm] at h; cases h
    | ok b =>
      cases b with
      | false => rw [hm] at h; cases h
      | true =>
        rw [hm] at h
        simp only at h
        cases hx : expiresAt (p :: ps) with
        | error e => rw [hx] at h; cases h
        | ok x =>
          rw [hx] at h
          simp only [Except.ok.injEq, Option.some.injEq] at h
          refine verifyChain_ok.2 ⟨p, ps, x, verifyTrustChain_ok.2 ⟨hb.anchor, hb.verified, fun pre j post e => ?_, hm⟩, hx, h.symm⟩
          obtain ⟨k, h1, h2, h3⟩ := hb.signed j (by rw [e]; simp)
          refine ⟨⟨k, h2, h3, Or.inl h1⟩, fun hn => ?_⟩
          rw [Nat.zero_add]
          exact hb.keyless pre j post e hn

theorem signed_of_any {L : Lib} {jar : KeyJar} {j : Jws} (h : (verifyKeys L jar j).any (L.verifies j) = true) : Signed L jar j := by
  obtain ⟨k, h1, h2⟩ := List.any_eq_true.1 h
  obtain ⟨h3, h4⟩ := List.mem_filter.1 h1
  exact ⟨k, h3, h4, h2⟩

/-- A turn keeps it so. -/
theorem access_inv {L : Lib} {chain : List Doc} {jar : KeyJar} {pc : Pc} (h : Inv L jar chain pc) :
    Inv L (access L chain jar pc).2 chain (access L chain jar pc).1 := by
  cases pc with
  | start =>
    show Inv L jar chain (begun jar chain)
    unfold begun
    cases chain with
    | nil => intro tc htc; cases htc
    | cons d ds =>
      simp only
      cases d with
      | none => intro tc htc; cases htc
      | some j =>
        simp only [trustedAnchor]
        cases ha : Dict.has jar j.payload.iss with
        | false => intro tc htc; cases htc
        | true =>
          refine ⟨[], rfl, ⟨j, ds, rfl, ha⟩, rfl, ?_, ?_, ?_⟩
          · intro i hi; simp [statements] at hi
          · intro p i q e; simp [statements] at e
          · intro i hi; simp [statements] at hi
  | loop ds ves =>
    obtain ⟨pre, h1, h2⟩ := h
    rcases ds with _ | ⟨_ | j, ds⟩
    · intro tc htc
      rw [List.append_nil] at h1
      subst h1
      exact finished_ok h2 htc
    · refine ⟨pre ++ [none], by rw [h1]; simp, h2.anchor, ?_, ?_, ?_, ?_⟩
      · rw [statements_snoc_none]; exact h2.verified
      · rw [statements_snoc_none]; exact h2.signed
      · rw [statements_snoc_none]; exact h2.keyless
      · rw [statements_snoc_none]; exact h2.held
    · show Inv L jar chain (checked L (chain.length - 1) jar j ds ves)
      unfold checked
      simp only
      by_cases he : (verifyKeys L jar j).isEmpty = true
      · rw [if_pos he]; intro tc htc; cases htc
      rw [if_neg he]
      by_cases hv : (verifyKeys L jar j).any (L.verifies j) = true
      · rw [if_pos hv]
        have hs := signed_of_any hv
        cases hj : j.payload.jwks with
        | none =>
          simp only
          by_cases hn : ves.length ≠ chain.length - 1
          · rw [if_pos hn]; intro tc htc; cases htc
          · rw [if_neg hn]
            refine ⟨pre ++ [some j], by rw [h1]; simp, h2.snoc (ds := ds) hs (fun _ => by omega) ?_⟩
            intro ks hks; rw [hj] at hks; cases hks
        | some ks => exact ⟨pre, j, rfl, h1, h2, hs, hj⟩
      · rw [if_neg hv]; intro tc htc; cases htc
  | compare p ks ds ves =>
    obtain ⟨pre, j, rfl, h2, h3, h4, h5⟩ := h
    show Inv L jar chain (compared L jar j.payload ks ds ves)
    have hloop : (∀ k ∈ ks, k ∈ jar.keysOf j.payload.sub) → Inv L jar chain (.loop ds (ves ++ [j.payload])) := by
      intro hk
      refine ⟨pre ++ [some j], by rw [h2]; simp, h3.snoc (ds := ds) h4 ?_ ?_⟩
      · intro hn; rw [h5] at hn; cases hn
      · intro ks' hks'; rw [h5] at hks'; cases hks'; exact hk
    have hadd : ∀ new : List Key, (∀ k ∈ ks, k ∈ new ∨ k ∈ jar.keysOf j.payload.sub) → (∀ k ∈ new, k ∈ ks) →
        Inv L jar chain (.add j.payload new ds ves) := fun new hn1 hn2 => ⟨pre, j, ks, rfl, h2, h3, h4, h5, hn1, hn2⟩
    unfold compared
    cases hg : Dict.get? jar j.payload.sub with
    | none =>
      simp only
      split
      · exact hadd ks (fun k hk => Or.inl hk) (fun _ hk => hk)
      · split
        · rename_i he
          refine hloop fun k hk => ?_
          rw [List.isEmpty_iff.1 he] at hk; simp at hk
        · exact hadd ks (fun k hk => Or.inl hk) (fun _ hk => hk)
    | some old =>
      have h0 : jar.keysOf j.payload.sub = old := by simp [KeyJar.keysOf, hg]
      have hall : ∀ k ∈ ks, k ∈ (ks.filter fun k => decide (k ∉ old)) ∨ k ∈ jar.keysOf j.payload.sub := by
        intro k hk
        rw [h0]
        by_cases ho : k ∈ old
        · exact Or.inr ho
        · exact Or.inl (by simp [hk, ho])
      simp only
      split
      · rename_i he
        refine hloop fun k hk => ?_
        rcases hall k hk with h | h
        · rw [List.isEmpty_iff.1 he] at h; simp at h
        · exact h
      · exact hadd _ hall (fun k hk => (List.mem_filter.1 hk).1)
  | add p new ds ves =>
    have hg := grows_set jar p.sub new
    obtain ⟨pre, j, ks, rfl, h2, h3, h4, h5, h6, h7⟩ := h
    refine ⟨pre ++ [some j], by rw [h2]; simp, (h3.mono hg).snoc (ds := ds) (h4.mono hg) ?_ ?_⟩
    · intro hn; rw [h5] at hn; cases hn
    · intro ks' hks' k hk
      rw [h5] at hks'; cases hks'
      show k ∈ KeyJar.keysOf (jar.set j.payload.sub _) j.payload.sub
      rw [keysOf_set, if_pos rfl]
      rcases h6 k hk with h | h
      · exact List.mem_append_right _ h
      · exact List.mem_append_left _ h
  | done r => exact h

/-! ### All schedules -/

theorem run_snoc (L : Lib) (chains : Nat → List Doc) (jar : KeyJar) (ts : List Nat) (i : Nat) :
    run L chains jar (ts ++ [i]) = turn L chains (run L chains jar ts) i := by simp [run, List.foldl_append]

/-- For proofs by induction over the schedule, from its end. -/
theorem schedule_induction {P : List Nat → Prop} (h0 : P []) (h1 : ∀ ts i, P ts → P (ts ++ [i])) (ts : List Nat) : P ts := by
  rw [← List.reverse_reverse ts]
  induction ts.reverse with
  | nil => exact h0
  | cons i ts ih => rw [List.reverse_cons]; exact h1 _ i ih

theorem run_inv (L : Lib) (chains : Nat → List Doc) (jar : KeyJar) (ts : List Nat) :
    ∀ i, Inv L (run L chains jar ts).jar (chains i) ((run L chains jar ts).pc i) := by
  induction ts using schedule_induction with
  | h0 => intro i; trivial
  | h1 ts t ih =>
    intro i
    rw [run_snoc]
    show Inv L (access L (chains t) (run L chains jar ts).jar ((run L chains jar ts).pc t)).2 (chains i)
      (if i = t then (access L (chains t) (run L chains jar ts).jar ((run L chains jar ts).pc t)).1 else (run L chains jar ts).pc i)
    by_cases hi : i = t
    · subst hi; rw [if_pos rfl]; exact access_inv (ih i)
    · rw [if_neg hi]; exact (ih i).mono (access_grows _ _ _ _)

theorem run_grows (L : Lib) (chains : Nat → List Doc) (jar : KeyJar) (ts ts' : List Nat) :
    Grows (run L chains jar ts).jar (run L chains jar (ts ++ ts')).jar := by
  induction ts' using schedule_induction with
  | h0 => rw [List.append_nil]; exact Grows.refl _
  | h1 ts' t ih =>
    rw [← List.append_assoc, run_snoc]
    exact ih.trans (access_grows _ _ _ _)

/-- Where the keys come from. -/
theorem run_origin (L : Lib) (chains : Nat → List Doc) (jar : KeyJar) (H : List (List Doc)) (ts : List Nat) :
    (∀ t ∈ ts, chains t ∈ H) → (∀ e k, k ∈ (run L chains jar ts).jar.keysOf e → Known L jar H e k) ∧
      ∀ e, Dict.has (run L chains jar ts).jar e = true → KnownEntity L jar H e := by
  induction ts using schedule_induction with
  | h0 => exact fun _ => ⟨fun _ _ h => .start h, fun _ h => Or.inl h⟩
  | h1 ts t ih =>
    intro hH
    obtain ⟨h1, h2⟩ := ih (fun i hi => hH i (List.mem_append_left _ hi))
    have hc := hH t (by simp)
    rw [run_snoc]
    have hinv := run_inv L chains jar ts t
    generalize run L chains jar ts = s at h1 h2 hinv
    show (∀ e k, k ∈ (access L (chains t) s.jar (s.pc t)).2.keysOf e → Known L jar H e k) ∧
      ∀ e, Dict.has (access L (chains t) s.jar (s.pc t)).2 e = true → KnownEntity L jar H e
    generalize s.pc t = pc at hinv
    cases pc with
    | start => exact ⟨h1, h2⟩
    | loop ds ves => rcases ds with _ | ⟨_ | j, ds⟩ <;> exact ⟨h1, h2⟩
    | compare p ks ds ves => exact ⟨h1, h2⟩
    | done r => exact ⟨h1, h2⟩
    | add p new ds ves =>
      obtain ⟨pre, j, ks, rfl, g2, g3, ⟨k', g4, g5, g6⟩, g7, g8, g9⟩ := hinv
      have hm : some j ∈ chains t := by rw [g2]; simp
      refine ⟨fun e k hk => ?_, fun e he => ?_⟩
      · replace hk : k ∈ KeyJar.keysOf (s.jar.set j.payload.sub (s.jar.keysOf j.payload.sub ++ new)) e := hk
        rw [keysOf_set] at hk
        split at hk
        · rename_i he
          subst he
          rcases List.mem_append.1 hk with hk | hk
          · exact h1 _ _ hk
          · exact .declared hc hm (h1 _ _ g4) g5 g6 g7 (g9 k hk)
        · exact h1 _ _ hk
      · replace he : Dict.has (s.jar.set j.payload.sub (s.jar.keysOf j.payload.sub ++ new)) e = true := he
        simp only [Dict.has, Dict.get?_set] at he
        split at he
        · rename_i hs
          exact Or.inr ⟨_, hc, j, k', hm, h1 _ _ g4, g5, g6, hs⟩
        · exact h2 e he

/-! ### A verification ends -/

/-- A bound on the turns a verification still needs. -/
def need (chain : List Doc) : Pc → Nat
  | .start => 3 * chain.length + 2
  | .loop ds _ => 3 * ds.length + 1
  | .compare _ _ ds _ => 3 * ds.length + 3
  | .add _ _ ds _ => 3 * ds.length + 2
  | .done _ => 0

theorem access_need (L : Lib) (chain : List Doc) (jar : KeyJar) (pc : Pc) :
    need chain (access L chain jar pc).1 ≤ need chain pc - 1 := by
  cases pc with
  | start =>
    show need chain (begun jar chain) ≤ _
    unfold begun
    cases chain with
    | nil => simp [need]
    | cons d ds => simp only; split <;> simp [need]
  | loop ds ves =>
    rcases ds with _ | ⟨_ | j, ds⟩
    · simp [access, need]
    · simp only [access, need, List.length_cons]; omega
    · simp only [access, checked]
      split
      · simp [need]
      · split
        · split
          · split <;> simp only [need, List.length_cons] <;> omega
          · simp only [need, List.length_cons]; omega
        · simp [need]
  | compare p ks ds ves =>
    simp only [access, compared]
    split
    · split
      · simp only [need]; omega
      · split <;> simp only [need] <;> omega
    · split <;> simp only [need] <;> omega
  | add p new ds ves => simp only [access, need]; omega
  | done r => simp [access, need]

theorem run_need (L : Lib) (chains : Nat → List Doc) (jar : KeyJar) (i : Nat) (ts ts' : List Nat) :
    need (chains i) ((run L chains jar (ts ++ ts')).pc i) ≤ need (chains i) ((run L chains jar ts).pc i) - ts'.count i := by
  induction ts' using schedule_induction with
  | h0 => simp
  | h1 ts' t ih =>
    rw [← List.append_assoc, run_snoc, List.count_append]
    show need (chains i) (if i = t then _ else _) ≤ _
    by_cases hi : i = t
    · subst hi
      rw [if_pos rfl]
      have := access_need L (chains i) (run L chains jar (ts ++ ts')).jar ((run L chains jar (ts ++ ts')).pc i)
      simp only [List.count_cons_self, List.count_nil]
      omega
    · rw [if_neg hi]
      have : List.count i [t] = 0 := by simp [List.count_cons, Ne.symm hi]
      omega

theorem need_zero {chain : List Doc} {pc : Pc} (h : need chain pc = 0) : ∃ r, pc = .done r := by
  cases pc with
  | done r => exact ⟨r, rfl⟩
  | start => simp [need] at h
  | loop ds ves => simp [need] at h
  | compare p ks ds ves => simp [need] at h
  | add p new ds ves => simp [need] at h

/-! ### What would be accepted is accepted -/

theorem access_safe {L : Lib} {chain : List Doc} {jar0 jar : KeyJar} {pc : Pc} {tc : TrustChain} (hg : Grows jar0 jar)
    (hc : (verifyChain L jar0 chain).1 = .ok (some tc)) (hi : Inv L jar chain pc) (hs : ∀ r, pc = .done r → r = .ok (some tc)) :
    ∀ r, (access L chain jar pc).1 = .done r → r = .ok (some tc) := by
  have hnow := verifyChain_mono hg.1 hg.2 hc
  obtain ⟨p, ps, x, h1, hx, rfl⟩ := verifyChain_ok.1 hc
  obtain ⟨⟨j0, ds0, h2, h3⟩, h4, h5, h6⟩ := verifyTrustChain_ok.1 h1
  intro r hr
  cases pc with
  | start =>
    replace hr : begun jar chain = .done r := hr
    subst h2
    simp only [begun, trustedAnchor, hg.2 _ h3] at hr
    cases hr
  | loop ds ves =>
    obtain ⟨pre, g1, g2⟩ := hi
    rcases ds with _ | ⟨_ | j, ds⟩
    · replace hr : Pc.done (finished chain ves) = .done r := hr
      rw [List.append_nil] at g1
      subst g1
      have hv : ves = p :: ps := by rw [g2.verified, h4]
      subst hv
      cases hr
      simp only [finished, h6, hx]
    · cases hr
    · replace hr : checked L (chain.length - 1) jar j ds ves = .done r := hr
      have hst : statements chain = statements pre ++ j :: statements ds := by rw [g1]; simp [statements]
      obtain ⟨⟨k, u1, u2, u3⟩, u4⟩ := h5 (statements pre) j (statements ds) hst
      have hk : k ∈ jar.keysOf j.payload.iss := by
        rcases u3 with u3 | ⟨j', u5, u6, ks, u7, u8⟩
        · exact hg.1 _ _ u3
        · rw [← u6]; exact g2.held j' u5 ks u7 k u8
      have hm : k ∈ verifyKeys L jar j := List.mem_filter.2 ⟨hk, u1⟩
      have he : ¬ (verifyKeys L jar j).isEmpty = true := by
        intro he; rw [List.isEmpty_iff.1 he] at hm; simp at hm
      have hv : (verifyKeys L jar j).any (L.verifies j) = true := List.any_eq_true.2 ⟨k, hm, u2⟩
      unfold checked at hr
      simp only at hr
      rw [if_neg he, if_pos hv] at hr
      cases hj : j.payload.jwks with
      | none =>
        rw [hj] at hr
        have := u4 hj
        simp only at hr
        rw [if_neg] at hr
        · cases hr
        · rw [g2.verified, List.length_map]; omega
      | some ks => rw [hj] at hr; cases hr
  | compare p ks ds ves =>
    replace hr : compared L jar p ks ds ves = .done r := hr
    unfold compared at hr
    split at hr
    · split at hr
      · cases hr
      · split at hr <;> cases hr
    · simp only at hr
      split at hr <;> cases hr
  | add p new ds ves => cases hr
  | done r' => cases hr; exact hs r rfl

theorem run_start (L : Lib) (chains : Nat → List Doc) (jar : KeyJar) (i : Nat) (ts : List Nat) :
    i ∉ ts → (run L chains jar ts).pc i = .start := by
  induction ts using schedule_induction with
  | h0 => exact fun _ => rfl
  | h1 ts t ih =>
    intro h
    simp only [List.mem_append, List.mem_singleton, not_or] at h
    rw [run_snoc]
    show (if i = t then _ else _) = _
    rw [if_neg h.2]
    exact ih h.1

theorem run_safe {L : Lib} {chains : Nat → List Doc} {jar : KeyJar} {ts : List Nat} {i : Nat} {tc : TrustChain} (hi : i ∉ ts)
    (hc : (verifyChain L (run L chains jar ts).jar (chains i)).1 = .ok (some tc)) (ts' : List Nat) :
    ∀ r, (run L chains jar (ts ++ ts')).pc i = .done r → r = .ok (some tc) := by
  induction ts' using schedule_induction with
  | h0 => intro r hr; rw [List.append_nil, run_start L chains jar i ts hi] at hr; cases hr
  | h1 ts' t ih =>
    intro r hr
    rw [← List.append_assoc, run_snoc] at hr
    replace hr : (if i = t then (access L (chains t) (run L chains jar (ts ++ ts')).jar ((run L chains jar (ts ++ ts')).pc t)).1
      else (run L chains jar (ts ++ ts')).pc i) = .done r := hr
    by_cases hit : i = t
    · subst hit
      rw [if_pos rfl] at hr
      exact access_safe (run_grows L chains jar ts ts') hc (run_inv L chains jar _ i) ih r hr
    · rw [if_neg hit] at hr
      exact ih r hr

/-! ## C211 -/

/-- C211, in full: whatever comes of verifications that go on at the same time could have come of the same verifications one after
the other, in some order. -/
def C211_full : Prop :=
  ∀ (L : Lib) (chains : Nat → List Doc) (jar : KeyJar) (ts : List Nat) (res : Nat → Except PyErr (Option TrustChain)),
    (∀ i ∈ ts, (run L chains jar ts).pc i = .done (res i)) →
    ∃ order : List Nat, order.Nodup ∧ (∀ i, i ∈ order ↔ i ∈ ts) ∧
      ∀ before i after, order = before ++ i :: after → (verifyChain L (runAll L jar (before.map chains)) (chains i)).1 = res i

/-- C211: a chain that would be accepted when its verification begins is accepted, with the same result, whatever other
verifications do meanwhile, as soon as it has had its turns. -/
theorem C211_accepted_partial (L : Lib) (chains : Nat → List Doc) (jar : KeyJar) (ts ts' : List Nat) (i : Nat) (tc : TrustChain)
    (hi : i ∉ ts) (hc : (verifyChain L (run L chains jar ts).jar (chains i)).1 = .ok (some tc))
    (hn : 3 * (chains i).length + 2 ≤ ts'.count i) : (run L chains jar (ts ++ ts')).pc i = .done (.ok (some tc)) := by
  have h := run_need L chains jar i ts ts'
  rw [run_start L chains jar i ts hi] at h
  obtain ⟨r, hr⟩ := need_zero (chain := chains i) (pc := (run L chains jar (ts ++ ts')).pc i) (by simp only [need] at h ⊢; omega)
  rw [hr, run_safe hi hc ts' r hr]

/-- C211: each verification ends, in three turns for each statement and two more, whatever others do. -/
theorem C211_ends (L : Lib) (chains : Nat → List Doc) (jar : KeyJar) (ts : List Nat) (i : Nat)
    (hn : 3 * (chains i).length + 2 ≤ ts.count i) : ∃ r, (run L chains jar ts).pc i = .done r := by
  have h := run_need L chains jar i [] ts
  rw [List.nil_append] at h
  refine need_zero (chain := chains i) ?_
  have : need (chains i) ((run L chains jar []).pc i) = 3 * (chains i).length + 2 := rfl
  omega

/-- C211: what was accepted amid others is accepted, with the same result, by a verification with the keys held at the end, or at
any later time, that nobody interrupts. -/
theorem C211_sound_partial (L : Lib) (chains : Nat → List Doc) (jar : KeyJar) (ts ts' : List Nat) (i : Nat) (tc : TrustChain)
    (h : (run L chains jar ts).pc i = .done (.ok (some tc))) :
    (verifyChain L (run L chains jar (ts ++ ts')).jar (chains i)).1 = .ok (some tc) := by
  have hi := run_inv L chains jar ts i
  rw [h] at hi
  have hg := run_grows L chains jar ts ts'
  exact verifyChain_mono hg.1 hg.2 (hi tc rfl)

/-- C211: no key is lost, and every key held was there at the start or was declared for its entity by a statement, in one of the
chains, that verified with a key that was come by in the same way. -/
theorem C211_vouched (L : Lib) (chains : Nat → List Doc) (jar : KeyJar) (ts : List Nat) (e : String) (k : Key) :
    (k ∈ jar.keysOf e → k ∈ (run L chains jar ts).jar.keysOf e) ∧
    (k ∈ (run L chains jar ts).jar.keysOf e → Known L jar (ts.map chains) e k) :=
  ⟨(run_grows L chains jar [] ts).1 e k,
    (run_origin L chains jar (ts.map chains) ts (fun _ ht => List.mem_map_of_mem ht)).1 e k⟩

/-- C211, where the chains are all of them such as would be accepted at the start: as one after the other, in whatever order. -/
theorem C211_any_order_partial (L : Lib) (chains : Nat → List Doc) (jar : KeyJar) (ts : List Nat)
    (res : Nat → Except PyErr (Option TrustChain)) (hr : ∀ i ∈ ts, (run L chains jar ts).pc i = .done (res i))
    (hc : ∀ i ∈ ts, ∃ tc, (verifyChain L jar (chains i)).1 = .ok (some tc)) (order : List Nat) (ho : ∀ i ∈ order, i ∈ ts)
    (before after : List Nat) (i : Nat) (e : order = before ++ i :: after) :
    (verifyChain L (runAll L jar (before.map chains)) (chains i)).1 = res i := by
  have hi : i ∈ ts := ho i (by rw [e]; simp)
  obtain ⟨tc, htc⟩ := hc i hi
  rw [C73_attempts_do_not_harm L jar _ _ tc htc]
  exact (run_safe (ts := []) (by simp) htc ts (res i) (hr i hi)).symm

namespace Ex
open Fed.Verify.Ex
/-- Two chains each of which can be verified only with the keys that the other brings. -/
def chainA : List Doc := [some (st "https://ta" 1 "https://im" [2]), some (st "https://im" 5 "https://leaf" [3])]
def chainB : List Doc := [some (st "https://ta" 1 "https://im" [5]), some (st "https://im" 2 "https://leaf" [3])]
def crossed : Nat → List Doc
  | 0 => chainA
  | _ => chainB
/-- Chains as they should be. -/
def proper : Nat → List Doc
  | 0 => chain
  | _ => imChain
/-- The turns of two verifications, alternating. -/
def alternating : List Nat := [0, 1, 0, 1, 0, 1, 0, 1, 0, 1, 0, 1, 0, 1, 0, 1, 0, 1, 0, 1, 0, 1]
theorem alternating_mem : ∀ i ∈ alternating, i = 0 ∨ i = 1 := by decide
/-- The result of a verification that is done. -/
def resultOf (pc : Pc) : Except PyErr (Option TrustChain) :=
  match pc with
  | .done r => r
  | _ => .ok none
end Ex

/-- C211 is false: two verifications succeed together neither of which can be the first. -/
theorem C211_crossed_violation : ¬ C211_full := by
  intro h
  obtain ⟨order, -, h2, h3⟩ := h Verify.Ex.L Ex.crossed Verify.Ex.jar Ex.alternating
    (fun i => Ex.resultOf ((run Verify.Ex.L Ex.crossed Verify.Ex.jar Ex.alternating).pc i))
    (by
      intro i hi
      have := Ex.alternating_mem i hi
      rcases this with rfl | rfl <;> decide +kernel)
  cases order with
  | nil => have := (h2 0).2 (by decide); simp at this
  | cons i rest =>
    have hi := (h2 i).1 (by simp)
    have h01 := Ex.alternating_mem i hi
    have := h3 [] i rest rfl
    revert this
    rcases h01 with rfl | rfl <;> decide +kernel

/-- And the same keys may be added twice, which the code means to avoid (verifier.py 94): two verifications look before either adds. -/
theorem C211_twice_violation : ¬ ∀ (L : Lib) (chains : Nat → List Doc) (jar : KeyJar) (ts : List Nat) (e : String),
    (∀ e, (jar.keysOf e).Nodup) → (∀ i j ks, some j ∈ chains i → j.payload.jwks = some ks → ks.Nodup) →
    ((run L chains jar ts).jar.keysOf e).Nodup := by
  intro h
  have := h Verify.Ex.L (fun _ => Verify.Ex.imChain) Verify.Ex.jar [0, 1, 0, 1, 0, 1, 0, 1] "https://im"
    (by
      intro e
      simp only [KeyJar.keysOf, Verify.Ex.jar, Dict.get?_cons, Dict.get?_nil]
      split <;> simp)
    (by
      intro i j ks hj hks
      simp only [Verify.Ex.imChain, List.mem_cons, Option.some.injEq, List.not_mem_nil, or_false] at hj
      rcases hj with rfl | rfl <;> (cases hks; simp))
  revert this
  decide +kernel

/-- The hypotheses of the theorems can be met: two verifications amid each other, of chains that would be accepted. -/
example : ∃ tc, (verifyChain Verify.Ex.L (run Verify.Ex.L Ex.proper Verify.Ex.jar [1, 1, 1]).jar (Ex.proper 0)).1 = .ok (some tc) ∧
    (0 : Nat) ∉ [1, 1, 1] ∧ 3 * (Ex.proper 0).length + 2 ≤ Ex.alternating.count 0 ∧
    (run Verify.Ex.L Ex.proper Verify.Ex.jar ([1, 1, 1] ++ Ex.alternating)).pc 0 = .done (.ok (some tc)) := by
  have hs : ((verifyChain Verify.Ex.L (run Verify.Ex.L Ex.proper Verify.Ex.jar [1, 1, 1]).jar (Ex.proper 0)).1.toOption.bind id).isSome
      = true := by decide +kernel
  have hn : 3 * (Ex.proper 0).length + 2 ≤ Ex.alternating.count 0 := by decide +kernel
  cases hc : (verifyChain Verify.Ex.L (run Verify.Ex.L Ex.proper Verify.Ex.jar [1, 1, 1]).jar (Ex.proper 0)).1 with
  | error e => rw [hc] at hs; cases hs
  | ok o =>
    cases o with
    | none => rw [hc] at hs; cases hs
    | some tc => exact ⟨tc, rfl, by simp, hn, C211_accepted_partial _ _ _ _ _ _ tc (by simp) hc hn⟩

end Fed.Verify.Threads
