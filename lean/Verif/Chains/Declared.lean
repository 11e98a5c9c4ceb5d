import Verif.Chains.Waiting
import Verif.Chains.Gained
import Verif.Policy.More
import Verif.Policy.Separate
/-
C229: what entities say about themselves (the metadata in their configurations), and what comes of it when they are resolved (`get_verified_trust_chains`, /repo/src/fedservice/entity/function/__init__.py 154-161). The policies are applied by
`apply_policies` (/repo/src/fedservice/entity/function/__init__.py 124-138), for every type of entity that the subject says it is (/repo/src/fedservice/entity/function/policy.py 373-386).
-/
namespace Fed.Chains
open Fed Fed.Verify Fed.Server

/-- What was declared is declared, with further values in some lists perhaps; and perhaps further types of entity. The fetch endpoint is the same. -/
structure MoreMetadata (d d' : Dict Policy.Metadata) : Prop where
  claims : ∀ t md, d.get? t = some md → ∃ md', d'.get? t = some md' ∧ ∀ c, Policy.Extended (md.get? c) (md'.get? c)
  endpoint : ∀ fe, d.get? "federation_entity" = some fe → ∃ fe', d'.get? "federation_entity" = some fe' ∧ fe'.get? "federation_fetch_endpoint" = fe.get? "federation_fetch_endpoint"

/-- A configuration that declares more, says the same otherwise, and is signed alike. -/
structure Fuller (C : Crypto) (j j' : Jws) : Prop where
  said : ∃ md, j'.payload = { j.payload with metadata := md } ∧ ∀ d, j.payload.metadata = some d → ∃ d', md = some d' ∧ MoreMetadata d d'
  usable : ∀ k, C.usable j' k = C.usable j k
  verifies : ∀ k, C.verifies j' k = C.verifies j k
  current : ∀ t, C.current t j' = C.current t j

/-- The same federation, in which entities declare more. -/
structure DeclaredMore (C : Crypto) (F F' : Collect.Federation) : Prop where
  config : ∀ k j, F.config k = .ok (some j) → ∃ j', F'.config k = .ok (some j') ∧ Fuller C j j'
  fetch : F'.fetch = F.fetch

/-- The same trust anchor, path and end of validity; and of each type of entity there is metadata with the same values, or lists with at least the same values. -/
structure LosesNothing (tc tc' : TrustChain) : Prop where
  anchor : tc'.anchor = tc.anchor
  issPath : tc'.issPath = tc.issPath
  exp : tc'.exp = tc.exp
  metadata : ∀ t m, Dict.get? tc.metadata t = some (.obj m) → ∃ m', Dict.get? tc'.metadata t = some (.obj m') ∧ ∀ c, Policy.Narrower (Dict.get? m c) (Dict.get? m' c)

/-- One by one. -/
def OneByOne {α : Type} (R : α → α → Prop) (l l' : List α) : Prop := ∃ ps : List (α × α), l = ps.map (·.1) ∧ l' = ps.map (·.2) ∧ ∀ p ∈ ps, R p.1 p.2

/-- C229 in full: when entities declare more, everybody who was trusted is trusted, by the same trust chains, and loses nothing of their metadata. -/
def C229_full : Prop :=
  ∀ (F F' : Collect.Federation) (V V' : Env) (st st' : State) (h h' : List Collect.FRun) (sub : String) (out : List TrustChain),
    Within F V st h → Within F' V' st' h' → V' = { V with W := F'.at V.W.now } → st'.jar = st.jar → F.Dated → F'.Dated → F.PlainHints → F'.PlainHints → Collect.Plain sub → DeclaredMore V.L.toCrypto F F' →
    (getVerified V st sub).1 = .ok out → ∃ out', (getVerified V' st' sub).1 = .ok out' ∧ OneByOne LosesNothing out out'

/-! ### Collecting -/

section
open Collect

variable {C : Crypto} {F F' : Federation}

theorem Fuller.selfVerify {j j' : Jws} (h : Fuller C j j') (t : Int) (hv : selfVerify C t j = .ok j.payload) : selfVerify C t j' = .ok j'.payload := by
  obtain ⟨md, h1, -⟩ := h.said
  have e1 : C.usable j' = C.usable j := funext h.usable
  have e2 : C.verifies j' = C.verifies j := funext h.verifies
  have e3 : j'.payload.jwks = j.payload.jwks := by rw [h1]
  unfold Fed.selfVerify at hv ⊢
  rw [e3]
  cases hk : j.payload.jwks with
  | none => rw [hk] at hv; cases hv
  | some ks =>
    rw [hk] at hv
    simp only at hv ⊢
    rw [e1, e2, h.current]
    split at hv
    · rename_i hc; rw [if_pos hc]
    · cases hv

theorem Fuller.endpoint {j j' : Jws} (h : Fuller C j j') {ep : Option Val} (he : getFetchEndpoint j.payload = .ok ep) : getFetchEndpoint j'.payload = .ok ep := by
  obtain ⟨md, h1, h2⟩ := h.said
  unfold getFetchEndpoint Payload.md at he ⊢
  rw [h1]
  simp only
  cases hm : j.payload.metadata with
  | none => rw [hm] at he; cases he
  | some d =>
    obtain ⟨d', rfl, h3⟩ := h2 d hm
    rw [hm] at he
    simp only [Option.getD_some] at he ⊢
    cases hd : Dict.get? d "federation_entity" with
    | none => rw [hd] at he; cases he
    | some fe =>
      obtain ⟨fe', h4, h5⟩ := h3.endpoint fe hd
      rw [hd] at he
      rw [h4]
      simp only at he ⊢
      rw [h5]
      exact he

theorem DeclaredMore.published (h : DeclaredMore C F F') (t : Int) (a : String) {j : Jws} (hj : publishedConfig C F t a = .some j) : ∃ j', publishedConfig C F' t a = .some j' ∧ Fuller C j j' := by
  obtain ⟨h1, h2⟩ := publishedConfig_iff.1 hj
  obtain ⟨j', h3, h4⟩ := h.config a j h1
  exact ⟨j', publishedConfig_iff.2 ⟨h3, h4.selfVerify t h2⟩, h4⟩

theorem DeclaredMore.statement (h : DeclaredMore C F F') (t : Int) (a e : String) {s : Option Jws} (hs : publishedStatement C F t a e = .some s) : publishedStatement C F' t a e = .some s := by
  unfold publishedStatement at hs ⊢
  cases hp : publishedConfig C F t a with
  | none => rw [hp] at hs; cases hs
  | some j =>
    obtain ⟨j', h1, h2⟩ := h.published t a hp
    rw [hp] at hs
    rw [h1]
    simp only at hs ⊢
    cases he : getFetchEndpoint j.payload with
    | error x => rw [he] at hs; cases hs
    | ok ep =>
      rw [he] at hs
      rw [h2.endpoint he, h.fetch]
      exact hs

theorem DeclaredMore.tree (h : DeclaredMore C F F') {P : Params} {t : Int} {s : String} : ∀ (n : Nat) (e : String) (p p' : Payload) (f : Forest Jws), p'.iss = p.iss → p'.hints = p.hints →
    idealTree C P F t s n e p = some f → idealTree C P F' t s n e p' = some f := by
  intro n
  induction n with
  | zero => intro e p p' f _ _ hf; cases hf
  | succ n ih =>
    intro e p p' f e1 e2 hf
    unfold idealTree at hf ⊢
    rw [e1, e2]
    cases hh : p.hints with
    | none => rw [hh] at hf; exact hf
    | some l =>
      rw [hh] at hf
      simp only at hf ⊢
      by_cases hi : p.iss = s
      · rw [if_pos hi] at hf ⊢; exact hf
      · rw [if_neg hi] at hf ⊢
        have one : ∀ a b, idealBranch C P F t (idealTree C P F t s n) e a = some b → idealBranch C P F' t (idealTree C P F' t s n) e a = some b := by
          intro a b hb
          unfold idealBranch at hb ⊢
          by_cases hc : e = a ∧ e ∈ P.anchors
          · rw [if_pos hc] at hb ⊢; exact hb
          · rw [if_neg hc] at hb ⊢
            cases hst : publishedStatement C F t a e with
            | none => rw [hst] at hb; cases hb
            | some o =>
              rw [h.statement t a e hst]
              rw [hst] at hb
              cases o with
              | none => exact hb
              | some s0 =>
                simp only at hb ⊢
                cases hp : publishedConfig C F t a with
                | none => rw [hp] at hb; cases hb
                | some j0 =>
                  obtain ⟨j0', q1, q2⟩ := h.published t a hp
                  obtain ⟨md, q3, -⟩ := q2.said
                  rw [hp] at hb
                  rw [q1]
                  simp only at hb ⊢
                  have hfr : freshAt P t j0' = freshAt P t j0 := by
                    unfold freshAt
                    rw [q3]
                  rw [hfr]
                  split at hb
                  · rename_i hfresh
                    rw [if_pos hfresh]
                    cases ht : idealTree C P F t s n a j0.payload with
                    | none => rw [ht] at hb; cases hb
                    | some g =>
                      rw [ht] at hb
                      rw [ih a j0.payload j0'.payload g (by rw [q3]) (by rw [q3]) ht]
                      exact hb
                  · cases hb
        have key : ∀ (l : List String) (acc f : Forest Jws), idealHints (idealBranch C P F t (idealTree C P F t s n) e) l acc = some f →
            idealHints (idealBranch C P F' t (idealTree C P F' t s n) e) l acc = some f := by
          intro l
          induction l with
          | nil => intro acc f hf; exact hf
          | cons a as ih2 =>
            intro acc f hf
            unfold idealHints at hf ⊢
            cases hb : idealBranch C P F t (idealTree C P F t s n) e a with
            | none => rw [hb] at hf; cases hf
            | some b =>
              rw [hb] at hf
              rw [one a b hb]
              exact ih2 _ _ hf
        exact key l _ f hf

/-- What is collected: the same, but for the configuration of the entity itself. -/
theorem DeclaredMore.collect (h : DeclaredMore C F F') {P : Params} {t : Int} {s e : String} {n : Nat} {f : Forest Jws} {ec : Jws} (hc : idealCollect C P F t n e s = some (f, ec)) :
    ∃ ec', idealCollect C P F' t n e s = some (f, ec') ∧ Fuller C ec ec' := by
  unfold idealCollect at hc ⊢
  cases hp : publishedConfig C F t e with
  | none => rw [hp] at hc; cases hc
  | some j =>
    obtain ⟨j', q1, q2⟩ := h.published t e hp
    obtain ⟨md, q3, -⟩ := q2.said
    rw [hp] at hc
    rw [q1]
    simp only at hc ⊢
    cases ht : idealTree C P F t s n e j.payload with
    | none => rw [ht] at hc; cases hc
    | some g =>
      rw [ht] at hc
      cases hc
      rw [h.tree n e _ j'.payload _ (by rw [q3]) (by rw [q3]) ht]
      exact ⟨j', rfl, q2⟩

/-- Everything in a trust chain, but for the configuration of the entity itself, is a statement somebody made. -/
theorem tree_made {P : Params} {t : Int} {s : String} : ∀ (n : Nat) (e : String) (p : Payload) (f : Forest Jws), idealTree C P F t s n e p = some f → ∀ c ∈ tree2chains f, ∀ j ∈ c, ∃ w a b, F.fetch w a b = .ok (some j) := by
  intro n
  induction n with
  | zero => intro e p f hf; cases hf
  | succ n ih =>
    intro e p f hf c hc j hj
    rcases idealTree_hints hf with ⟨-, rfl⟩ | ⟨-, rfl⟩ | ⟨-, q⟩
    · cases hc
    · cases hc
    · obtain ⟨x, hx, hbr⟩ := mem_tree2chains.1 hc
      obtain ⟨-, b2, -⟩ := idealHints_mem q
      rcases b2 x hx with ⟨-, hb⟩ | h
      · obtain ⟨a, b⟩ := x
        simp only at hb hbr
        rcases branch_published hb with ⟨rfl, -⟩ | ⟨s1, j1, g1, rfl, hs, -, ht⟩
        · have : c = [] := hbr
          subst this
          cases hj
        · have made : ∃ w a b, F.fetch w a b = .ok (some s1) := by
            unfold publishedStatement at hs
            split at hs
            · cases hs
            · split at hs
              · cases hs
              · split at hs
                · cases hs
                · split at hs
                  · rename_i hf
                    split at hs
                    · cases hs; exact ⟨_, _, _, hf⟩
                    · cases hs
                  · cases hs
          cases g1 with
          | nil =>
            have : c = [s1] := hbr
            subst this
            rw [List.mem_singleton.1 hj]
            exact made
          | missing =>
            obtain ⟨c', hc', rfl⟩ := hbr
            rcases List.mem_append.1 hj with h | h
            · exact ih a _ _ ht c' hc' j h
            · rw [List.mem_singleton.1 h]; exact made
          | node =>
            obtain ⟨c', hc', rfl⟩ := hbr
            rcases List.mem_append.1 hj with h | h
            · exact ih a _ _ ht c' hc' j h
            · rw [List.mem_singleton.1 h]; exact made
      · cases h

end

/-! ### Verifying -/

section

variable {L : Lib} {ec ec' : Jws}

/-- Two configurations of an entity with the same issuer, subject, end of validity and keys, signed alike. -/
structure Framed (C : Crypto) (j j' : Jws) : Prop where
  iss : j'.payload.iss = j.payload.iss
  sub : j'.payload.sub = j.payload.sub
  exp : j'.payload.exp = j.payload.exp
  jwks : j'.payload.jwks = j.payload.jwks
  usable : ∀ k, C.usable j' k = C.usable j k
  verifies : ∀ k, C.verifies j' k = C.verifies j k

theorem Fuller.framed {C : Crypto} {j j' : Jws} (h : Fuller C j j') : Framed C j j' := by
  obtain ⟨md, e, -⟩ := h.said
  exact ⟨by rw [e], by rw [e], by rw [e], by rw [e], h.usable, h.verifies⟩

theorem loop_framed (hs : Framed L.toCrypto ec ec') (n : Nat) : ∀ (ds : List Doc) (jar jar1 : KeyJar) (ves r : List Payload), verifyLoop L n (ds ++ [some ec]) jar ves = (.ok r, jar1) →
    ∃ vs, r = vs ++ [ec.payload] ∧ verifyLoop L n (ds ++ [some ec']) jar ves = (.ok (vs ++ [ec'.payload]), jar1) ∧ ∀ v ∈ vs, v ∈ ves ∨ ∃ j, some j ∈ ds ∧ j.payload = v := by
  intro ds
  induction ds with
  | nil =>
    intro jar jar1 ves r h
    have q1 : verifyKeys L jar ec' = verifyKeys L jar ec := by
      have : L.usable ec' = L.usable ec := funext hs.usable
      unfold verifyKeys
      rw [this, hs.iss]
    have q2 : L.verifies ec' = L.verifies ec := funext hs.verifies
    have q3 := hs.jwks
    have q4 := hs.sub
    simp only [List.nil_append, verifyLoop] at h ⊢
    rw [q1, q2, q3, q4]
    split at h
    · cases h
    · rename_i hk
      rw [if_neg hk]
      split at h
      · rename_i hv
        rw [if_pos hv]
        split at h
        · rename_i hj
          split at h
          · cases h
          · rename_i hn
            cases h
            exact ⟨ves, rfl, by rw [if_neg hn], fun v hv => Or.inl hv⟩
        · cases h
          exact ⟨ves, rfl, rfl, fun v hv => Or.inl hv⟩
      · cases h
  | cons d ds ih =>
    intro jar jar1 ves r h
    cases d with
    | none =>
      obtain ⟨vs, k1, k2, k3⟩ := ih jar jar1 ves r h
      exact ⟨vs, k1, k2, fun v hv => (k3 v hv).imp id fun ⟨j, hj, e⟩ => ⟨j, List.mem_cons_of_mem _ hj, e⟩⟩
    | some j =>
      have wider : ∀ vs : List Payload, (∀ v ∈ vs, v ∈ ves ++ [j.payload] ∨ ∃ j, some j ∈ ds ∧ j.payload = v) → ∀ v ∈ vs, v ∈ ves ∨ ∃ j0, some j0 ∈ some j :: ds ∧ j0.payload = v := by
        intro vs k3 v hv
        rcases k3 v hv with h | ⟨j0, hj0, e⟩
        · rcases List.mem_append.1 h with h | h
          · exact Or.inl h
          · exact Or.inr ⟨j, by simp, (List.mem_singleton.1 h).symm⟩
        · exact Or.inr ⟨j0, List.mem_cons_of_mem _ hj0, e⟩
      simp only [List.cons_append, verifyLoop] at h ⊢
      split at h
      · cases h
      · rename_i hk
        rw [if_neg hk]
        split at h
        · rename_i hv
          rw [if_pos hv]
          split at h
          · split at h
            · cases h
            · rename_i hn
              rw [if_neg hn]
              obtain ⟨vs, k1, k2, k3⟩ := ih _ _ _ r h
              exact ⟨vs, k1, k2, wider vs k3⟩
          · obtain ⟨vs, k1, k2, k3⟩ := ih _ _ _ r h
            exact ⟨vs, k1, k2, wider vs k3⟩
        · cases h

theorem chain_framed (hs : Framed L.toCrypto ec ec') (ds : List Doc) (jar jar1 : KeyJar) (r : List Payload) (h : verifyTrustChain L jar (ds ++ [some ec]) = (.ok r, jar1)) :
    (r = [] ∧ verifyTrustChain L jar (ds ++ [some ec']) = (.ok [], jar1)) ∨
    ∃ vs, r = vs ++ [ec.payload] ∧ verifyTrustChain L jar (ds ++ [some ec']) = (.ok (vs ++ [ec'.payload]), jar1) ∧ ∀ v ∈ vs, ∃ j, some j ∈ ds ∧ j.payload = v := by
  have hd : ∃ d d' rest rest', ds ++ [some ec] = d :: rest ∧ ds ++ [some ec'] = d' :: rest' ∧ trustedAnchor jar d' = trustedAnchor jar d := by
    cases ds with
    | nil => exact ⟨_, _, _, _, rfl, rfl, by simp only [trustedAnchor]; rw [hs.iss]⟩
    | cons d ds => exact ⟨_, _, _, _, rfl, rfl, rfl⟩
  have hlen : (ds ++ [some ec']).length - 1 = (ds ++ [some ec]).length - 1 := by simp
  obtain ⟨d, d', rest, rest', k1, k2, k3⟩ := hd
  have key := loop_framed hs ((ds ++ [some ec]).length - 1) ds jar
  unfold verifyTrustChain at h ⊢
  generalize hc : ds ++ [some ec] = c at h key k1 hlen
  generalize hc' : ds ++ [some ec'] = c' at key k2 hlen ⊢
  subst k1 k2
  simp only at h ⊢
  rw [k3]
  cases ht : trustedAnchor jar d with
  | error e => rw [ht] at h; cases h
  | ok b =>
    rw [ht] at h
    cases b with
    | false => cases h; exact Or.inl ⟨rfl, rfl⟩
    | true =>
      simp only at h ⊢
      rw [hlen]
      generalize hl : verifyLoop L ((d :: rest).length - 1) (d :: rest) jar [] = q at h
      obtain ⟨q, jar2⟩ := q
      cases q with
      | error e => cases h
      | ok ves =>
        obtain ⟨vs, q1, q2, q3⟩ := key jar2 [] ves hl
        rw [q2]
        subst q1
        simp only [getLast_snoc, List.dropLast_concat] at h ⊢
        have e2 : meets vs ec'.payload = meets vs ec.payload := by
          unfold meets toC Constraints.meetsRestrictions
          rw [hs.sub]
        rw [e2]
        cases hm : meets vs ec.payload with
        | error e => rw [hm] at h; cases h
        | ok b =>
          rw [hm] at h
          cases b with
          | false => cases h; exact Or.inl ⟨rfl, rfl⟩
          | true =>
            simp only [if_true, Prod.mk.injEq, Except.ok.injEq] at h ⊢
            obtain ⟨rfl, rfl⟩ := h
            refine Or.inr ⟨vs, rfl, ⟨rfl, rfl⟩, fun v hv => ?_⟩
            rcases q3 v hv with h | h
            · cases h
            · exact h

/-- Two verified chains for the same entity, with two configurations of it. -/
structure SameFrame (ec ec' : Jws) (ds : List Doc) (tc tc' : TrustChain) : Prop where
  anchor : tc'.anchor = tc.anchor
  issPath : tc'.issPath = tc.issPath
  exp : tc'.exp = tc.exp
  metadata : tc.metadata = [] ∧ tc'.metadata = []
  verified : ∃ vs, tc.verified = vs ++ [ec.payload] ∧ tc'.verified = vs ++ [ec'.payload] ∧ ∀ v ∈ vs, ∃ j, some j ∈ ds ∧ j.payload = v

theorem accepted_framed (hs : Framed L.toCrypto ec ec') (ds : List Doc) (jar jar1 : KeyJar) (o : Option TrustChain) (h : verifyChain L jar (ds ++ [some ec]) = (.ok o, jar1)) :
    (o = none ∧ verifyChain L jar (ds ++ [some ec']) = (.ok none, jar1)) ∨ ∃ tc tc', o = some tc ∧ verifyChain L jar (ds ++ [some ec']) = (.ok (some tc'), jar1) ∧ SameFrame ec ec' ds tc tc' := by
  unfold verifyChain at h
  generalize hq : verifyTrustChain L jar (ds ++ [some ec]) = q at h
  obtain ⟨q, jar2⟩ := q
  cases q with
  | error e => cases h
  | ok r =>
    rcases chain_framed hs ds jar jar2 r hq with ⟨rfl, h2⟩ | ⟨vs, rfl, h2, h3⟩
    · cases h
      left
      refine ⟨rfl, ?_⟩
      unfold verifyChain
      rw [h2]
    · right
      have h8 : ∃ q qs q' qs', vs ++ [ec.payload] = q :: qs ∧ vs ++ [ec'.payload] = q' :: qs' ∧ q'.iss = q.iss := by
        cases vs with
        | nil => exact ⟨_, _, _, _, rfl, rfl, hs.iss⟩
        | cons v vs => exact ⟨_, _, _, _, rfl, rfl, rfl⟩
      obtain ⟨p, ps, p', ps', g1, g2, g3⟩ := h8
      have h5 : expiresAt (p' :: ps') = expiresAt (p :: ps) := by
        rw [← g1, ← g2]
        exact expires_reordered (by unfold Payload.getExp; rw [hs.exp]) vs _
      have h6 : (p' :: ps').map (·.iss) = (p :: ps).map (·.iss) := by
        rw [← g1, ← g2]; simp [hs.iss]
      rw [g1] at h
      simp only at h
      unfold verifyChain
      rw [h2, g2]
      simp only [h5, h6]
      cases hx : expiresAt (p :: ps) with
      | error e => rw [hx] at h; cases h
      | ok x =>
        rw [hx] at h
        simp only [Prod.mk.injEq, Except.ok.injEq] at h ⊢
        obtain ⟨rfl, rfl⟩ := h
        refine ⟨_, _, rfl, ⟨rfl, rfl⟩, g3, ?_, rfl, ⟨rfl, rfl⟩, vs, g1.symm, g2.symm, h3⟩
        rfl

theorem OneByOne.nil {α : Type} {R : α → α → Prop} : OneByOne R [] [] := ⟨[], rfl, rfl, by intro p hp; cases hp⟩

theorem OneByOne.cons {α : Type} {R : α → α → Prop} {x x' : α} {l l' : List α} (h : R x x') (hl : OneByOne R l l') : OneByOne R (x :: l) (x' :: l') := by
  obtain ⟨ps, rfl, rfl, hp⟩ := hl
  refine ⟨(x, x') :: ps, rfl, rfl, fun p hm => ?_⟩
  rcases List.mem_cons.1 hm with rfl | hm
  · exact h
  · exact hp p hm

theorem all_framed (hs : Framed L.toCrypto ec ec') : ∀ (cs : List (List Jws)) (jar : KeyJar) (tcs : List TrustChain), (verifyChains L (cs.map fun c => c.map some ++ [some ec]) jar).1 = .ok tcs →
    ∃ tcs', (verifyChains L (cs.map fun c => c.map some ++ [some ec']) jar).1 = .ok tcs' ∧ OneByOne (fun tc tc' => ∃ c ∈ cs, SameFrame ec ec' (c.map some) tc tc') tcs tcs'
  | [], jar, tcs, h => by cases h; exact ⟨[], rfl, .nil⟩
  | c :: cs, jar, tcs, h => by
    simp only [List.map_cons, verifyChains] at h ⊢
    generalize hq : verifyChain L jar (c.map some ++ [some ec]) = q at h
    obtain ⟨q, jar1⟩ := q
    cases q with
    | error e => cases h
    | ok o =>
      simp only at h
      have key : ∀ tcs1, (verifyChains L (cs.map fun c => c.map some ++ [some ec]) jar1).1 = .ok tcs1 → ∃ tcs', (verifyChains L (cs.map fun c => c.map some ++ [some ec']) jar1).1 = .ok tcs' ∧
          OneByOne (fun tc tc' => ∃ c0 ∈ c :: cs, SameFrame ec ec' (c0.map some) tc tc') tcs1 tcs' := by
        intro tcs1 h1
        obtain ⟨tcs', k1, ps, k2, k3, k4⟩ := all_framed hs cs jar1 tcs1 h1
        exact ⟨tcs', k1, ps, k2, k3, fun p hp => (k4 p hp).imp fun c0 h0 => ⟨List.mem_cons_of_mem _ h0.1, h0.2⟩⟩
      generalize verifyChains L (cs.map fun c => c.map some ++ [some ec]) jar1 = r at h key
      obtain ⟨r, jar2⟩ := r
      cases r with
      | error e => cases h
      | ok tcs1 =>
        obtain ⟨tcs', k1, k2⟩ := key tcs1 rfl
        cases h
        rcases accepted_framed hs (c.map some) jar jar1 o hq with ⟨rfl, g⟩ | ⟨tc, tc', rfl, g, g'⟩
        · rw [g]
          simp only
          generalize verifyChains L (cs.map fun c => c.map some ++ [some ec']) jar1 = r' at k1
          obtain ⟨r', jar3⟩ := r'
          simp only at k1
          subst k1
          exact ⟨_, rfl, k2⟩
        · rw [g]
          simp only
          generalize verifyChains L (cs.map fun c => c.map some ++ [some ec']) jar1 = r' at k1
          obtain ⟨r', jar3⟩ := r'
          simp only at k1
          subst k1
          exact ⟨_, rfl, .cons ⟨c, by simp, g'⟩ k2⟩

end

/-! ### Policies -/

section
open Policy

variable {E : SetEnum Val} {K : SetEnum String}

theorem policyForTypes_of {l : List PStatement} {leaf : PStatement} : ∀ {ts : List String}, (∀ t ∈ ts, ∃ o, policyFor E K l leaf t = .ok o) → ∃ d, policyForTypes E K l leaf ts = .ok d
  | [], _ => ⟨[], rfl⟩
  | t :: ts, h => by
    obtain ⟨o, h1⟩ := h t (by simp)
    obtain ⟨d, h2⟩ := policyForTypes_of (ts := ts) fun u hu => h u (by simp [hu])
    exact ⟨(t, o) :: d, by unfold policyForTypes; rw [h1, h2]; rfl⟩

theorem policyForTypes_absent {l : List PStatement} {leaf : PStatement} {t : String} : ∀ {ts : List String} {m : Dict (Option Metadata)}, policyForTypes E K l leaf ts = .ok m → t ∉ ts → m.get? t = none
  | [], m, h, _ => by cases h; rfl
  | t0 :: ts, m, h, ht => by
    unfold policyForTypes at h
    cases h1 : policyFor E K l leaf t0 with
    | error e => rw [h1] at h; cases h
    | ok r =>
      rw [h1, ok_bind] at h
      cases h2 : policyForTypes E K l leaf ts with
      | error e => rw [h2] at h; cases h
      | ok m' =>
        rw [h2, ok_bind] at h
        cases h
        simp only [List.mem_cons, not_or] at ht
        rw [Dict.get?_cons, if_neg (Ne.symm ht.1)]
        exact policyForTypes_absent h2 ht.2

/-- Authorities that say nothing about a type accept everything of that type. -/
theorem policyFor_unspoken {sups : List PStatement} (hne : sups ≠ []) {leaf : PStatement} {t : String} (h : ∀ es ∈ sups, es.rule t = ⟨[], []⟩) : ∃ o, policyFor E K sups leaf t = .ok o := by
  have rest : ∀ l : List PStatement, (∀ es ∈ l, es.rule t = ⟨[], []⟩) → gatherRest E K t l ⟨[], []⟩ = .ok ⟨[], []⟩ := by
    intro l
    induction l with
    | nil => intro _; rfl
    | cons es l ih =>
      intro hl
      unfold gatherRest
      simp only
      rw [hl es (by simp), if_pos rfl]
      exact ih fun e he => hl e (by simp [he])
  have hg : gatherPolicies E K sups t = .ok ⟨[], []⟩ := by
    cases sups with
    | nil => exact absurd rfl hne
    | cons es l =>
      unfold gatherPolicies
      simp only
      rw [h es (by simp)]
      exact rest l fun e he => h e (by simp [he])
  unfold policyFor
  rw [hg, ok_bind]
  cases leaf.metadata.get? t with
  | none => exact ⟨none, rfl⟩
  | some md =>
    obtain ⟨m, hm⟩ := (applyPolicy_ok_iff E K md ⟨[], []⟩).2 fun c hc => by cases hc
    exact ⟨some m, by simp only [hm]; rfl⟩

theorem policyFor_fuller {sups : List PStatement} {leaf leaf' : PStatement} {t : String} {md : Metadata} {o : Option Metadata} (hl : leaf.metadata.get? t = some md)
    (hm : ∃ md', leaf'.metadata.get? t = some md' ∧ ∀ c, Extended (md.get? c) (md'.get? c)) (h : policyFor E K sups leaf t = .ok o) :
    ∃ m m', o = some m ∧ policyFor E K sups leaf' t = .ok (some m') ∧ ∀ c, Narrower (m.get? c) (m'.get? c) := by
  obtain ⟨md', hl', he⟩ := hm
  unfold policyFor at h ⊢
  cases hg : gatherPolicies E K sups t with
  | error e => rw [hg] at h; cases h
  | ok R =>
    rw [hg, ok_bind] at h
    rw [ok_bind]
    simp only [hl] at h
    simp only [hl']
    cases ha : applyPolicy E K md R with
    | error e => rw [ha] at h; cases h
    | ok m =>
      rw [ha, ok_bind] at h
      cases h
      obtain ⟨m', ha', hx⟩ := applyPolicy_extended he ha
      refine ⟨m, m', rfl, by rw [ha']; rfl, fun c => ?_⟩
      rcases hx c with h1 | ⟨xs, ys, h1, h2, h3, _⟩
      · exact Or.inl h1
      · exact Or.inr ⟨xs, ys, h1, h2, h3⟩

theorem callPolicy_fuller {sups : List PStatement} (hne : sups ≠ []) {leaf leaf' : PStatement} {m : Dict (Option Metadata)} (hm : MoreMetadata leaf.metadata leaf'.metadata)
    (hq : ∀ t, leaf.metadata.get? t = none → leaf'.metadata.get? t ≠ none → ∀ es ∈ sups, es.rule t = ⟨[], []⟩) (h : callPolicy E K sups leaf none = .ok m) :
    ∃ m', callPolicy E K sups leaf' none = .ok m' ∧ ∀ t x, m.get? t = some (some x) → ∃ x', m'.get? t = some (some x') ∧ ∀ c, Narrower (x.get? c) (x'.get? c) := by
  unfold callPolicy at h ⊢
  simp only at h ⊢
  have all := policyForTypes_ok h
  obtain ⟨m', h'⟩ := policyForTypes_of (E := E) (K := K) (l := sups) (leaf := leaf') (ts := leaf'.metadata.keys) fun t ht => by
    cases hl : leaf.metadata.get? t with
    | none => exact policyFor_unspoken hne (hq t hl fun hn => by have := (Dict.mem_keys_iff _ _).1 ht; rw [hn] at this; cases this)
    | some md =>
      obtain ⟨o, -, ho⟩ := all t ((Dict.mem_keys_iff_exists _ _).2 ⟨md, hl⟩)
      obtain ⟨-, m', -, k, -⟩ := policyFor_fuller hl (hm.claims t md hl) ho
      exact ⟨_, k⟩
  refine ⟨m', h', fun t x hx => ?_⟩
  have ht : t ∈ leaf.metadata.keys := by
    by_cases ht : t ∈ leaf.metadata.keys
    · exact ht
    · exfalso
      rw [policyForTypes_absent h ht] at hx
      cases hx
  obtain ⟨md, hl⟩ := (Dict.mem_keys_iff_exists _ _).1 ht
  obtain ⟨o, g1, g2⟩ := all t ht
  obtain ⟨x0, x', rfl, k1, k2⟩ := policyFor_fuller hl (hm.claims t md hl) g2
  rw [hx] at g1
  cases g1
  obtain ⟨md', hl', -⟩ := hm.claims t md hl
  obtain ⟨o', g3, g4⟩ := policyForTypes_ok h' t ((Dict.mem_keys_iff_exists _ _).2 ⟨md', hl'⟩)
  rw [k1] at g4
  cases g4
  exact ⟨x', g3, k2⟩

end

theorem applied_fuller {C : Crypto} {E : SetEnum Val} {K : SetEnum String} {ec ec' : Jws} {ds : List Doc} {tc tc' t : TrustChain} (hf : Fuller C ec ec') (hs : SameFrame ec ec' ds tc tc')
    (hq : ∀ t, ec.payload.md.get? t = none → ec'.payload.md.get? t ≠ none → ∀ j, some j ∈ ds → (toP j.payload).rule t = ⟨[], []⟩) (h : applyToChain E K tc = .ok t) :
    ∃ t', applyToChain E K tc' = .ok t' ∧ LosesNothing t t' := by
  obtain ⟨vs, h1, h2, h3⟩ := hs.verified
  obtain ⟨md', e1, e2⟩ := hf.said
  obtain ⟨leaf, md, k1, k2, k3⟩ := applyToChain_ok.1 h
  rw [h1, getLast_snoc] at k1
  cases k1
  obtain ⟨d', rfl, hm⟩ := e2 md k2
  have em : ec'.payload.metadata = some d' := by rw [e1]
  have m1 : (toP ec.payload).metadata = md := by simp only [toP, Payload.md, k2, Option.getD_some]
  have m2 : (toP ec'.payload).metadata = d' := by simp only [toP, Payload.md, em, Option.getD_some]
  rcases k3 with ⟨k3, m, k4, rfl⟩ | ⟨k3, m, k4, rfl⟩
  · rw [h1, List.dropLast_concat] at k4
    have hne : vs.map toP ≠ [] := by
      intro hn
      rw [List.map_eq_nil_iff] at hn
      rw [h1, hn] at k3
      simp at k3
    obtain ⟨m', g1, g2⟩ := callPolicy_fuller (leaf' := toP ec'.payload) hne (by rw [m1, m2]; exact hm) (fun t ht ht' es hes => by
      obtain ⟨v, hv, rfl⟩ := List.mem_map.1 hes
      obtain ⟨j, hj, rfl⟩ := h3 v hv
      exact hq t ht ht' j hj) k4
    refine ⟨_, applyToChain_ok.2 ⟨ec'.payload, d', by rw [h2, getLast_snoc], em, Or.inl ⟨?_, m', by rw [h2, List.dropLast_concat]; exact g1, rfl⟩⟩, hs.anchor, hs.issPath, hs.exp, fun t x hx => ?_⟩
    · rw [h1] at k3; rw [h2]; simpa using k3
    · simp only [get?_map_val] at hx ⊢
      cases ho : m.get? t with
      | none => rw [ho] at hx; cases hx
      | some o =>
        rw [ho] at hx
        cases o with
        | none => cases hx
        | some y =>
          cases hx
          obtain ⟨y', g3, g4⟩ := g2 t _ ho
          exact ⟨y', by rw [g3]; rfl, g4⟩
  · obtain ⟨m', g1, g2⟩ := hm.claims "" m k4
    refine ⟨_, applyToChain_ok.2 ⟨ec'.payload, d', by rw [h2, getLast_snoc], em, Or.inr ⟨?_, m', g1, rfl⟩⟩, hs.anchor, hs.issPath, hs.exp, fun t x hx => ?_⟩
    · rw [h1] at k3; rw [h2]; simpa using k3
    · simp only at hx ⊢
      rcases g2 t with g | ⟨xs, ys, g, -⟩
      · exact ⟨x, by rw [← g, hx], fun c => .refl _⟩
      · rw [hx] at g; cases g

theorem policies_fuller {C : Crypto} {E : SetEnum Val} {K : SetEnum String} {ec ec' : Jws} (hf : Fuller C ec ec') {cs : List (List Jws)}
    (hq : ∀ t, ec.payload.md.get? t = none → ec'.payload.md.get? t ≠ none → ∀ c ∈ cs, ∀ j ∈ c, (toP j.payload).rule t = ⟨[], []⟩) : ∀ (ps : List (TrustChain × TrustChain)) (out : List TrustChain),
    (∀ p ∈ ps, ∃ c ∈ cs, SameFrame ec ec' (c.map some) p.1 p.2) → applyPolicies E K (ps.map (·.1)) = .ok out → ∃ out', applyPolicies E K (ps.map (·.2)) = .ok out' ∧ OneByOne LosesNothing out out'
  | [], out, _, h => by cases h; exact ⟨[], rfl, .nil⟩
  | p :: ps, out, hp, h => by
    simp only [List.map_cons, applyPolicies] at h ⊢
    obtain ⟨c, hc, hs⟩ := hp p (by simp)
    cases h1 : applyToChain E K p.1 with
    | error e => rw [h1] at h; cases h
    | ok t =>
      rw [h1] at h
      simp only [ok_bind] at h
      cases h2 : applyPolicies E K (ps.map (·.1)) with
      | error e => rw [h2] at h; cases h
      | ok rest =>
        rw [h2] at h
        cases h
        obtain ⟨t', g1, g2⟩ := applied_fuller hf hs (fun t a b j hj => by
          obtain ⟨j0, hj0, e⟩ := List.mem_map.1 hj
          cases e
          exact hq t a b c hc j hj0) h1
        obtain ⟨rest', g3, g4⟩ := policies_fuller hf hq ps rest (fun p hm => hp p (by simp [hm])) h2
        exact ⟨t' :: rest', by rw [g1, g3]; rfl, .cons g2 g4⟩

/-- C229 as far as it holds: when entities declare further values in their lists, or further types of entity about which no authority says anything, everybody who was trusted is trusted, by the same trust chains, and loses nothing of their metadata.
Missing: types that an authority says something about (`C229_violation`). Further types of entities other than the one that is resolved never matter. -/
theorem C229_unspoken_partial (F F' : Collect.Federation) (V V' : Env) (st st' : State) (h h' : List Collect.FRun) (sub stopAt : String) (out : List TrustChain)
    (w : Within F V st h) (w' : Within F' V' st' h') (hV : V' = { V with W := F'.at V.W.now }) (hj : st'.jar = st.jar) (hd : F.Dated) (hd' : F'.Dated) (hp : F.PlainHints) (hp' : F'.PlainHints) (hsub : Collect.Plain sub)
    (hr : DeclaredMore V.L.toCrypto F F')
    (hq : ∀ j j' t, F.config sub = .ok (some j) → F'.config sub = .ok (some j') → j.payload.md.get? t = none → j'.payload.md.get? t ≠ none →
      ∀ v a b s, F.fetch v a b = .ok (some s) → s.payload.policy.get? t = none ∧ s.payload.md.get? t = none)
    (ho : (getVerified V st sub stopAt).1 = .ok out) : ∃ out', (getVerified V' st' sub stopAt).1 = .ok out' ∧ OneByOne LosesNothing out out' := by
  obtain ⟨f, ec, tcs, c1, c2, c3, -⟩ := getVerified_ok ho
  have i1 := w.ideal hd hp hsub stopAt
  have i2 := w'.ideal hd' hp' hsub stopAt
  rw [c1] at i1
  obtain ⟨ec', q1, q2⟩ := hr.collect i1.symm
  subst hV
  simp only at i2
  have hn : (F'.at V.W.now).now = V.W.now := rfl
  rw [hn, q1] at i2
  have c1' := toOption_some i2
  have e1 : F.config sub = .ok (some ec) ∧ ∃ n, Collect.idealTree V.L.toCrypto V.P F V.W.now stopAt n sub ec.payload = some f := by
    have := i1.symm
    unfold Collect.idealCollect at this
    cases hpc : Collect.publishedConfig V.L.toCrypto F V.W.now sub with
    | none => rw [hpc] at this; cases this
    | some j =>
      rw [hpc] at this
      simp only at this
      cases ht : Collect.idealTree V.L.toCrypto V.P F V.W.now stopAt V.fuel sub j.payload with
      | none => rw [ht] at this; cases this
      | some g => rw [ht] at this; cases this; exact ⟨(Collect.publishedConfig_iff.1 hpc).1, _, ht⟩
  have e2 : F'.config sub = .ok (some ec') := by
    have := q1
    unfold Collect.idealCollect at this
    cases hpc : Collect.publishedConfig V.L.toCrypto F' V.W.now sub with
    | none => rw [hpc] at this; cases this
    | some j =>
      rw [hpc] at this
      simp only at this
      cases ht : Collect.idealTree V.L.toCrypto V.P F' V.W.now stopAt V.fuel sub j.payload with
      | none => rw [ht] at this; cases this
      | some g => rw [ht] at this; cases this; exact (Collect.publishedConfig_iff.1 hpc).1
  obtain ⟨e1, n, ht⟩ := e1
  obtain ⟨tcs', v1, ps, v2, v3, v4⟩ := all_framed q2.framed _ _ _ c2
  subst v2 v3
  obtain ⟨out', g1, g2⟩ := policies_fuller q2 (cs := Collect.tree2chains f) (fun t ht1 ht2 c hc j hjc => by
    obtain ⟨v, a, b, hfe⟩ := tree_made n sub _ f ht c hc j hjc
    obtain ⟨z1, z2⟩ := hq ec ec' t e1 e2 ht1 ht2 v a b j hfe
    simp only [Policy.PStatement.rule, toP, z1, z2, Option.getD_none]) ps out v4 c3
  refine ⟨out', ?_, g2⟩
  unfold getVerified
  simp only
  generalize hcol : Collect.collect V.L.toCrypto V.P (F'.at V.W.now) V.fuel st'.coll sub stopAt = r at c1' ⊢
  obtain ⟨r, coll⟩ := r
  simp only at c1'
  subst c1'
  simp only
  rw [hj]
  generalize verifyChains V.L ((Collect.tree2chains f).map fun c => c.map some ++ [some ec']) st.jar = r at v1 ⊢
  obtain ⟨r, jar⟩ := r
  simp only at v1
  subst v1
  simp only
  rw [g1]

namespace Ex229
/-- `leaf` is below `im`, which is below `ta`; `ta` has a policy for relying parties and one for OpenID providers. -/
def policy : Dict Policy.MetadataPolicy := [("openid_relying_party", [("scopes", [("subset_of", Policy.Ex.strs ["openid", "email"])])]), ("openid_provider", [("logo_uri", [("essential", .bool true)])])]
def leafOld : Dict Policy.Metadata := [("openid_relying_party", [("scopes", Policy.Ex.strs ["openid", "phone"])])]
/-- More scopes, of which one is allowed; and a type that no authority says anything about. -/
def leafMore : Dict Policy.Metadata := [("other", []), ("openid_relying_party", [("scopes", Policy.Ex.strs ["openid", "phone", "email", "address"])])]
/-- A type for which there is a policy. -/
def leafRole : Dict Policy.Metadata := [("openid_relying_party", [("scopes", Policy.Ex.strs ["openid", "phone"])]), ("openid_provider", [])]
def F (md : Dict Policy.Metadata) : Collect.Federation where
  config
    | "https://ta" => .ok (some (Ex219.conf "https://ta" none (Ex.fe true)))
    | "https://im" => .ok (some (Ex219.conf "https://im" (some ["https://ta"]) (Ex.fe true)))
    | "https://leaf" => .ok (some (Ex219.conf "https://leaf" (some ["https://im"]) md))
    | _ => .error .missingPage
  fetch _ a e := .ok (some (Ex219.about a e (if a = "https://ta" then policy else [])))

theorem known {md : Dict Policy.Metadata} {k : String} {j : Jws} (h : (F md).config k = .ok (some j)) : j.payload.exp = some 10000 ∧ ∀ l, j.payload.hints = some l → ∀ a ∈ l, Collect.Plain a := by
  simp only [F] at h
  split at h <;> cases h <;> refine ⟨rfl, fun l hl => ?_⟩ <;> cases hl <;> decide

theorem dated (md : Dict Policy.Metadata) : (F md).Dated := fun _ _ h => ⟨10000, (known h).1⟩
theorem plainHints (md : Dict Policy.Metadata) : (F md).PlainHints := fun _ _ l h hl => (known h).2 l hl
theorem inForce (md : Dict Policy.Metadata) : (F md).InForce Ex.L.toCrypto 0 := by
  intro k j h
  simp only [Ex.L, notExpired, (known h).1]
  decide

theorem sameMetadata (d : Dict Policy.Metadata) : MoreMetadata d d := ⟨fun _ md h => ⟨md, h, fun _ => .refl _⟩, fun fe h => ⟨fe, h, rfl⟩⟩

theorem declaredMore {md md' : Dict Policy.Metadata} (hm : MoreMetadata md md') : DeclaredMore Ex.L.toCrypto (F md) (F md') where
  config k j h := by
    simp only [F] at h ⊢
    split at h
    · exact ⟨j, h, ⟨j.payload.metadata, rfl, fun d hd => ⟨d, hd, sameMetadata d⟩⟩, fun _ => rfl, fun _ => rfl, fun _ => rfl⟩
    · exact ⟨j, h, ⟨j.payload.metadata, rfl, fun d hd => ⟨d, hd, sameMetadata d⟩⟩, fun _ => rfl, fun _ => rfl, fun _ => rfl⟩
    · cases h
      exact ⟨_, rfl, ⟨some md', rfl, fun d hd => by cases hd; exact ⟨md', rfl, hm⟩⟩, fun _ => rfl, fun _ => rfl, fun _ => rfl⟩
    · cases h
  fetch := rfl

theorem more : MoreMetadata leafOld leafMore := by
  refine ⟨fun t md h => ?_, fun fe h => by cases h⟩
  simp only [leafOld, Dict.get?_cons] at h
  by_cases ht : "openid_relying_party" = t
  · subst ht
    rw [if_pos rfl] at h
    cases h
    refine ⟨_, rfl, fun c => ?_⟩
    simp only [Dict.get?_cons]
    by_cases hc : "scopes" = c
    · rw [if_pos hc, if_pos hc]
      exact Or.inr ⟨_, _, rfl, rfl, by decide +kernel, by decide +kernel⟩
    · rw [if_neg hc, if_neg hc]
      exact .refl _
  · rw [if_neg ht] at h
    cases h

theorem role : MoreMetadata leafOld leafRole := by
  refine ⟨fun t md h => ?_, fun fe h => by cases h⟩
  simp only [leafOld, Dict.get?_cons] at h
  by_cases ht : "openid_relying_party" = t
  · subst ht
    rw [if_pos rfl] at h
    cases h
    exact ⟨_, rfl, fun c => .refl _⟩
  · rw [if_neg ht] at h
    cases h

abbrev V (md : Dict Policy.Metadata) : Env := Ex221.V (F md) ["https://ta"]
abbrev st : State := { jar := [("https://ta", [1])] }
def result (r : Except PyErr (List TrustChain)) : Except PyErr (List (String × Dict Val)) := r.map (·.map fun tc => (tc.anchor, tc.metadata))
end Ex229

open Ex229 in
/-- C229 does not hold: a relying party that says it is an OpenID provider as well, and does not say what its trust anchor requires of providers, cannot be resolved any more, not as a relying party either. -/
theorem C229_violation : ¬ C229_full := by
  intro h
  have h1 : (Ex229.result (getVerified (V leafOld) st "https://leaf").1).isOk = true := by decide +kernel
  have h2 : (Ex229.result (getVerified (V leafRole) st "https://leaf").1) = .error .policyError := by decide +kernel
  cases h3 : (getVerified (V leafOld) st "https://leaf").1 with
  | error e => rw [h3] at h1; cases h1
  | ok out =>
    obtain ⟨out', h4, -⟩ := h (F leafOld) (F leafRole) (V leafOld) (V leafRole) st st [] [] "https://leaf" out (Ex221.within (inForce _) _ _) (Ex221.within (inForce _) _ _) rfl rfl (dated _) (dated _) (plainHints _) (plainHints _)
      (by decide) (declaredMore role) h3
    rw [h4] at h2
    cases h2

open Ex229 in
/-- The case of the theorem: `leaf` is resolved with one scope, and with two when it declares more. -/
example : Ex229.result (getVerified (V leafOld) st "https://leaf").1 = .ok [("https://ta", [("openid_relying_party", .obj [("scopes", Policy.Ex.strs ["openid"])])])] ∧
    Ex229.result (getVerified (V leafMore) st "https://leaf").1 = .ok [("https://ta", [("other", .obj []), ("openid_relying_party", .obj [("scopes", Policy.Ex.strs ["openid", "email"])])])] := by decide +kernel

open Ex229 in
example (out : List TrustChain) (ho : (getVerified (V leafOld) st "https://leaf").1 = .ok out) : ∃ out', (getVerified (V leafMore) st "https://leaf").1 = .ok out' ∧ OneByOne LosesNothing out out' := by
  refine C229_unspoken_partial (F leafOld) (F leafMore) (V leafOld) (V leafMore) st st [] [] "https://leaf" "" out (Ex221.within (inForce _) _ _) (Ex221.within (inForce _) _ _) rfl rfl (dated _) (dated _) (plainHints _) (plainHints _)
      (by decide) (declaredMore more) (fun j j' t hj hj' h1 h2 v a b s hs => ?_) ho
  simp only [F, Except.ok.injEq, Option.some.injEq] at hj hj' hs
  subst hj hj' hs
  have ht : t = "other" := by
    by_cases ht : "other" = t
    · exact ht.symm
    · exfalso
      simp only [Ex219.conf, Payload.md, Option.getD_some, leafOld, leafMore, Dict.get?_cons, if_neg ht] at h1 h2
      exact h2 (by by_cases hr : "openid_relying_party" = t <;> simp [hr] at h1 ⊢)
  subst ht
  refine ⟨?_, rfl⟩
  simp only [Ex219.about]
  split <;> rfl

end Fed.Chains
