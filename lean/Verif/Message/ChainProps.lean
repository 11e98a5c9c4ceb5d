import Verif.Message.CritProps
import Verif.Chains.Props
/-
Property C92: critical extensions and trust chains.
-/
namespace Fed.Message
open Fed Fed.Verify Fed.Chains

/-! ## C92 -/

/-- The statement lists as critical a claim it carries that entity statements do not define. Resolution knows no extensions. -/
def HasCritical (p : Payload) : Prop := ∃ c, p.crit = some c ∧ ∃ k ∈ c, k ∈ p.others

/-- C92 in full: no chain a resolution gives has a statement with an unknown critical claim. -/
def C92_full : Prop :=
  ∀ (V : Env) (st : State) (entity : String) (out : List TrustChain), (getVerified V st entity).1 = .ok out →
    ∀ tc ∈ out, ∀ p ∈ tc.verified, ¬ HasCritical p

namespace Ex
open Fed.Chains.Ex
/-- The same statement with `must_audit` as critical claim. -/
def critical (j : Jws) : Jws := { j with payload := { j.payload with crit := some ["must_audit"], others := ["must_audit"] } }
/-- The federation of `Chains.Ex.W` where `im` makes use of a critical claim. -/
def Wc : Collect.World where
  now := 0
  config := (W 0).config
  fetch _ a e := .ok (some (if a = "https://im" then critical (about a e) else about a e taPolicy))
end Ex

/-- C92 does not hold: the verification of chains does not look at `crit`. -/
theorem C92_accepted_violation : ¬ C92_full := by
  intro h
  have h1 : ((getVerified (Fed.Chains.Ex.env Ex.Wc) Fed.Chains.Ex.st "https://leaf").1.toOption.map fun out => out.map fun tc =>
      tc.verified.map fun p => (p.crit, p.others)) = some [[(none, []), (some ["must_audit"], ["must_audit"]), (none, [])]] := by decide +kernel
  cases ho : (getVerified (Fed.Chains.Ex.env Ex.Wc) Fed.Chains.Ex.st "https://leaf").1 with
  | error e => rw [ho] at h1; simp [Except.toOption] at h1
  | ok out =>
    have h2 := h _ _ _ out ho
    rw [ho] at h1
    simp only [Except.toOption, Option.map_some, Option.some.injEq] at h1
    match out, h1 with
    | [tc], h1 =>
      simp only [List.map_cons, List.map_nil, List.cons.injEq, and_true] at h1
      match hv : tc.verified with
      | [] => rw [hv] at h1; simp at h1
      | [_] => rw [hv] at h1; simp at h1
      | _ :: p :: _ =>
        rw [hv] at h1
        simp only [List.map_cons, List.cons.injEq, Prod.mk.injEq] at h1
        exact h2 tc (by simp) p (by rw [hv]; simp) ⟨_, h1.2.1.1, "must_audit", by simp, by simp [h1.2.1.2]⟩

/-- The statement without its critical claims. -/
def strip (p : Payload) : Payload := { p with crit := none, others := [] }
def stripJ (j : Jws) : Jws := { j with payload := strip j.payload }
def stripTc (tc : TrustChain) : TrustChain := { tc with verified := tc.verified.map strip, chain := tc.chain.map (Option.map stripJ) }

theorem verifyLoop_strip (L : Lib) (hu : ∀ j k, L.usable (stripJ j) k = L.usable j k) (hv : ∀ j k, L.verifies (stripJ j) k = L.verifies j k) (n : Nat) :
    ∀ (ds : List Doc) (jar : KeyJar) (ves : List Payload),
      verifyLoop L n (ds.map (Option.map stripJ)) jar (ves.map strip) =
        ((verifyLoop L n ds jar ves).1.map (List.map strip), (verifyLoop L n ds jar ves).2) := by
  intro ds
  induction ds with
  | nil => intro jar ves; rfl
  | cons d ds ih =>
    intro jar ves
    cases d with
    | none => exact ih jar ves
    | some j =>
      simp only [List.map_cons, Option.map_some, verifyLoop]
      have hk : verifyKeys L jar (stripJ j) = verifyKeys L jar j := by
        unfold verifyKeys
        rw [show (stripJ j).payload.iss = j.payload.iss from rfl]
        congr 1
        funext k
        exact hu j k
      have ha : (verifyKeys L jar j).any (L.verifies (stripJ j)) = (verifyKeys L jar j).any (L.verifies j) := by
        congr 1
        funext k
        exact hv j k
      have ih' : ∀ jar, verifyLoop L n (ds.map (Option.map stripJ)) jar (ves.map strip ++ [(stripJ j).payload]) =
          ((verifyLoop L n ds jar (ves ++ [j.payload])).1.map (List.map strip), (verifyLoop L n ds jar (ves ++ [j.payload])).2) := by
        intro jar
        have := ih jar (ves ++ [j.payload])
        rw [List.map_append] at this
        exact this
      rw [hk, ha, show (stripJ j).payload.jwks = j.payload.jwks from rfl, show (stripJ j).payload.sub = j.payload.sub from rfl, List.length_map]
      split
      · rfl
      · split
        · cases j.payload.jwks with
          | none =>
            simp only
            split
            · rfl
            · exact ih' _
          | some ks => exact ih' _
        · rfl

theorem expiresLoop_strip : ∀ (ps : List Payload) (e : Int), expiresLoop (ps.map strip) e = expiresLoop ps e := by
  intro ps
  induction ps with
  | nil => intro e; rfl
  | cons p ps ih =>
    intro e
    simp only [List.map_cons, expiresLoop, show (strip p).getExp = p.getExp from rfl, ih]

/-- What the code does about C92 (the claim itself is false): a chain is accepted, with the same outcome and the same keys recorded, exactly if it would be
accepted without its critical claims, when the same signatures verify. -/
theorem C92_disregarded_partial (L : Lib) (hu : ∀ j k, L.usable (stripJ j) k = L.usable j k) (hv : ∀ j k, L.verifies (stripJ j) k = L.verifies j k)
    (jar : KeyJar) (chain : List Doc) :
    verifyChain L jar (chain.map (Option.map stripJ)) =
      ((verifyChain L jar chain).1.map (Option.map stripTc), (verifyChain L jar chain).2) := by
  have key : verifyTrustChain L jar (chain.map (Option.map stripJ)) =
      ((verifyTrustChain L jar chain).1.map (List.map strip), (verifyTrustChain L jar chain).2) := by
    cases chain with
    | nil => rfl
    | cons d ds =>
      have hl := verifyLoop_strip L hu hv ((d :: ds).length - 1) (d :: ds) jar []
      simp only [List.map_cons, List.map_nil] at hl
      unfold verifyTrustChain
      simp only [List.map_cons, List.length_cons, List.length_map] at hl ⊢
      have ht : trustedAnchor jar (d.map stripJ) = trustedAnchor jar d := by cases d <;> rfl
      rw [ht, hl]
      generalize verifyLoop L (ds.length + 1 - 1) (d :: ds) jar [] = r
      obtain ⟨r1, jar'⟩ := r
      cases trustedAnchor jar d with
      | error e => rfl
      | ok b =>
        cases b with
        | false => rfl
        | true =>
          cases r1 with
          | error e => rfl
          | ok ves =>
            simp only [Except.map, List.getLast?_map]
            cases hlast : ves.getLast? with
            | none => rfl
            | some leaf =>
              have hm : meets (List.dropLast (ves.map strip)) (strip leaf) = meets ves.dropLast leaf := by
                unfold meets
                rw [← List.map_dropLast, List.map_map]
                rfl
              simp only [Option.map_some, hm]
              cases meets ves.dropLast leaf with
              | error e => rfl
              | ok b => cases b <;> rfl
  unfold verifyChain
  rw [key]
  generalize verifyTrustChain L jar chain = r
  obtain ⟨r1, jar'⟩ := r
  cases r1 with
  | error e => rfl
  | ok ves =>
    cases ves with
    | nil => rfl
    | cons p ps =>
      simp only [Except.map, List.map_cons]
      have he : expiresAt (strip p :: ps.map strip) = expiresAt (p :: ps) := expiresLoop_strip (p :: ps) _
      rw [he]
      cases expiresAt (p :: ps) with
      | error e => rfl
      | ok x => simp [stripTc, strip]

example : (∀ j k, Fed.Chains.Ex.L.usable (stripJ j) k = Fed.Chains.Ex.L.usable j k) ∧
    (∀ j k, Fed.Chains.Ex.L.verifies (stripJ j) k = Fed.Chains.Ex.L.verifies j k) := ⟨fun _ _ => rfl, fun _ _ => rfl⟩

end Fed.Message
