import Verif.TrustMarks.LifeProps
import Verif.Server.ContextProps
/-
Property C195: who may issue a trust mark.
-/
namespace Fed.TrustMarks
open Fed Verify Chains Server.Context

/-- C195 in full: a trust mark is accepted for an anchor only if its issuer is among those the anchor, in what it publishes about itself, lists as issuers of that mark; if it lists issuers of
that mark. `noKeys`: cryptojwt accepts no token without a key. -/
def C195_full : Prop :=
  ∀ (T : TmLib) (V : Env) (st : State) (t : Tm) (anchor : String) (p : TmPayload) (c : Jws) (md : Dict Policy.Metadata) (fe : Policy.Metadata) (listed : Dict Val) (id iss : String) (who : List Val),
    (∀ t, T.noKeys t = false) → (verifyMark T V st (some t) anchor).1 = .ok (some p) → V.W.config anchor = .ok (some c) → c.payload.metadata = some md →
    md.get? "federation_entity" = some fe → fe.get? "trust_mark_issuers" = some (.obj listed) → p.id = some id → p.iss = some iss → listed.get? id = some (.arr who) → .str iss ∈ who

namespace Ex
/-- The trust anchor lists `https://other` as the only issuer of `tm`. -/
def taMd195 : Dict Policy.Metadata := [("federation_entity", [("federation_fetch_endpoint", .str "fetch"), ("trust_mark_issuers", .obj [("tm", .arr [.str "https://other"])])])]
def W195 : Collect.World where
  now := 5
  config
    | "https://ta" => .ok (some (Chains.Ex.conf "https://ta" none taMd195))
    | e => (Chains.Ex.W 5).config e
  fetch := (Chains.Ex.W 5).fetch
end Ex

/-- C195 does not hold: the list is not consulted. -/
theorem C195_unlisted_violation : ¬ C195_full := by
  intro h
  have := h Ex.T (Chains.Ex.env Ex.W195) Ex.st (Ex.mark "tm") "https://ta" (Ex.mark "tm").payload _ Ex.taMd195 _ _ "tm" "https://leaf" _ (fun _ => rfl) (by decide +kernel) rfl rfl rfl rfl rfl rfl rfl
  revert this
  decide

/-- C195 as far as it holds: the issuer the accepted mark names has a verified chain to the anchor, and the mark is signed with a key that has been learnt as that issuer's; so a caller that
compares the issuer with the list of the anchor is safe. Missing: the verifier does not compare. -/
theorem C195_member_partial (T : TmLib) (V : Env) (st : State) (t : Tm) (anchor : String) (p : TmPayload) (hk : ∀ t, T.noKeys t = false) (h : (verifyMark T V st (some t) anchor).1 = .ok (some p)) :
    ∃ iss st' tcs tc k, p.iss = some iss ∧ (getVerified V st' iss).1 = .ok tcs ∧ tc ∈ tcs ∧ tc.anchor = anchor ∧ (p.delegation = none → st' = st) ∧ T.verifies t k = true ∧
      ((∃ h, Known V.L st.jar h iss k) ∨ ∃ tc ∈ tcs, ∃ leaf ks, tc.verified.getLast? = some leaf ∧ leaf.iss = iss ∧ leaf.jwks = some ks ∧ k ∈ ks) := by
  obtain ⟨t', e, rfl, acc⟩ := C52_accepted_partial T V st (some t) anchor false "" p hk h
  cases e
  obtain ⟨st', _, iss, tcs, tc, h1, -, h3, h4, h5, h6, k, h7, h8⟩ := acc.chain
  exact ⟨iss, st', tcs, tc, k, h3, h4, h5, h6, h1, h7, h8⟩

theorem verify_payload {p : TmPayload} {iss sub id : String} {iat : Int} (h1 : p.iss = some iss) (h2 : p.sub = some sub) (h3 : p.id = some id) (h4 : p.iat = some iat) :
    p.verify = .ok (iss, sub, id) := by
  simp [TmPayload.verify, h1, h2, h3, h4]

/-- C195: neither the id of a mark nor its subject matters. Of two marks of the same issuer without delegations, unexpired, and signed alike, one is accepted exactly if the other is; also the
errors are the same, and what is learnt. -/
theorem C195_any_mark (T : TmLib) (V : Env) (st : State) (t t' : Tm) (anchor iss sub id sub' id' : String) (iat iat' : Int)
    (a1 : t.payload.iss = some iss) (a2 : t.payload.sub = some sub) (a3 : t.payload.id = some id) (a4 : t.payload.iat = some iat) (a5 : ∀ e, t.payload.exp = some e → V.W.now ≤ e)
    (a6 : t.payload.delegation = none)
    (b1 : t'.payload.iss = some iss) (b2 : t'.payload.sub = some sub') (b3 : t'.payload.id = some id') (b4 : t'.payload.iat = some iat') (b5 : ∀ e, t'.payload.exp = some e → V.W.now ≤ e)
    (b6 : t'.payload.delegation = none)
    (hu : ∀ k, T.usable t' k = T.usable t k) (hv : ∀ k, T.verifies t' k = T.verifies t k) (hn : T.noKeys t' = T.noKeys t) :
    ((verifyMark T V st (some t') anchor).1 = .ok (some t'.payload) ↔ (verifyMark T V st (some t) anchor).1 = .ok (some t.payload)) ∧
    ((verifyMark T V st (some t') anchor).1 = .ok none ↔ (verifyMark T V st (some t) anchor).1 = .ok none) ∧
    (∀ e, (verifyMark T V st (some t') anchor).1 = .error e ↔ (verifyMark T V st (some t) anchor).1 = .error e) ∧
    (verifyMark T V st (some t') anchor).2 = (verifyMark T V st (some t) anchor).2 := by
  have live : ∀ {t : Tm}, (∀ e, t.payload.exp = some e → V.W.now ≤ e) → isExpired V.W.now t.payload.exp = false := by
    intro t h
    unfold isExpired
    cases hx : t.payload.exp with
    | none => rfl
    | some e => have := h e hx; simp; omega
  have keys : ∀ jar, tmKeys T jar t' iss = tmKeys T jar t iss := by
    intro jar
    unfold tmKeys
    exact List.filter_congr fun k _ => hu k
  have vf : T.verifies t' = T.verifies t := funext hv
  have sig : ∀ ks, checkSignature T t' ks = (checkSignature T t ks).map fun _ => t'.payload := by
    intro ks
    unfold checkSignature
    rw [vf, hn]
    cases ks.isEmpty <;> cases T.noKeys t <;> cases ks.any (T.verifies t) <;> rfl
  have own : ∀ ks p, checkSignature T t ks = some p → p = t.payload := by
    intro ks p h
    unfold checkSignature at h
    split at h <;> split at h <;> simp at h <;> exact h.symm
  -- the two runs
  have key : (verifyMark T V st (some t') anchor).1 = (verifyMark T V st (some t) anchor).1.map (Option.map fun _ => t'.payload) ∧
      (verifyMark T V st (some t') anchor).2 = (verifyMark T V st (some t) anchor).2 ∧ ∀ p, (verifyMark T V st (some t) anchor).1 = .ok (some p) → p = t.payload := by
    unfold verifyMark
    simp only [verify_payload a1 a2 a3 a4, verify_payload b1 b2 b3 b4, live a5, live b5, checkDelegation, a6, b6, Bool.false_eq_true, if_false]
    generalize getVerified V st iss = r
    obtain ⟨r1, r2⟩ := r
    cases r1 with
    | error e => exact ⟨rfl, rfl, by intro p h; cases h⟩
    | ok tcs =>
      simp only
      split
      · exact ⟨rfl, rfl, by intro p h; cases h⟩
      · split
        · unfold verifyTmSignature
          simp only [keys]
          split
          · cases applyPolicies V.E V.K tcs with
            | error e => exact ⟨rfl, rfl, by intro p h; cases h⟩
            | ok tcs =>
              cases tcs with
              | nil => exact ⟨rfl, rfl, by intro p h; cases h⟩
              | cons tc _ =>
                simp only
                cases tc.verified.getLast? with
                | none => exact ⟨rfl, rfl, by intro p h; cases h⟩
                | some leaf =>
                  cases tc.issPath with
                  | nil => exact ⟨rfl, rfl, by intro p h; cases h⟩
                  | cons e _ =>
                    simp only
                    cases leaf.jwks with
                    | none => exact ⟨rfl, rfl, by intro p h; cases h⟩
                    | some ks => exact ⟨by simp only [keys, sig, Except.map], rfl, by intro p h; exact own _ _ (by simpa using h)⟩
          · exact ⟨by simp only [sig, Except.map], rfl, by intro p h; exact own _ _ (by simpa using h)⟩
        · exact ⟨rfl, rfl, by intro p h; cases h⟩
  obtain ⟨k1, k2, k3⟩ := key
  refine ⟨?_, ?_, ?_, k2⟩
  all_goals rw [k1]
  all_goals generalize (verifyMark T V st (some t) anchor).1 = r at k3 ⊢
  · cases r with
    | error e => simp [Except.map]
    | ok x =>
      cases x with
      | none => simp [Except.map]
      | some p => simp [Except.map, k3 p rfl]
  · cases r with
    | error e => simp [Except.map]
    | ok x => cases x <;> simp [Except.map]
  · intro e
    cases r <;> simp [Except.map]

/-- A string (`SINGLE_…_STRING`, message.py 450-458). -/
def strVal : Val → Option String
  | .str s => some s
  | _ => none

/-- A number (`SINGLE_…_INT`, message.py 452, 455). -/
def intVal : Val → Option Int
  | .int n => some n
  | _ => none

/-- `TrustMark(**payload)` (/repo/src/fedservice/entity/function/trust_mark_verifier.py 38-39, /repo/src/fedservice/message.py 448-459). `dec`: the token a string is. Simplification: a member
of a wrong type counts as missing. -/
def markOf (dec : String → Option Delegation) (d : Dict Val) : TmPayload where
  iss := (d.get? "iss").bind strVal
  sub := (d.get? "sub").bind strVal
  id := (d.get? "id").bind strVal
  iat := (d.get? "iat").bind intVal
  exp := (d.get? "exp").bind intVal
  delegation := (d.get? "delegation").bind fun v => (strVal v).map dec

/-- C195: a member of a federation can certify itself. A mark it makes for itself, with an id of its own choosing, is accepted by everybody, whatever any anchor lists, until it expires. The
federation is run with this software as in C142. -/
theorem C195_self_made (T : TmLib) (V : Env) (J : Jose) (member : String → Option Member) (host : Val → Option String) (issued now : Int) (st : State) (h : List Collect.FRun)
    (m : Member) (rank : String → Nat) (k : Key)
    (w : WellKept J V.L member host st.jar rank) (hW : V.W = (world J member host issued).at now)
    (hst : st.coll = Collect.runAll V.L.toCrypto V.P (h.map (Collect.FRun.run (world J member host issued)))) (ho : h.Pairwise fun a b => a.time ≤ b.time)
    (ht : ∀ r ∈ h, r.time ≤ now) (hp : ∀ r ∈ h, Collect.Plain r.entity)
    (hnow : now < issued + 86400 - V.P.delta ∧ now < issued + 86400)
    (hurl : ∀ e m, member e = some m → Constraints.IsUrl e)
    (honly : ∀ e m a ma reg, member e = some m → a ∈ strs m.authority.hints → member a = some ma → ma.authority.subordinate.get? e = some reg → OnlyKeys ma.authority e reg)
    -- the entity, and the mark it makes
    (s : Signer) (t0 : Int) (id : String) (kw spec : Dict Val) (ms : List Val) (he : member s.ctx.entityId = some m) (hfuel : rank s.ctx.entityId < V.fuel)
    (hhints : strs m.authority.hints ≠ []) (hmd : m.authority.metadata.truthy = true) (hstore : st.store.get? s.ctx.entityId = none)
    (hs : s.spec.get? id = some spec) (hid : kw.get? "id" = none) (hsub : kw.get? "sub" = none) (hexp : kw.get? "exp" = none) (hm : s.ctx.marks = .value (.arr ms))
    (hd : kw.get? "delegation" = none ∧ spec.get? "delegation" = none) (hlive : now ≤ t0 + markLifetime)
    (sign : TmPayload → Nat) (hk : k ∈ J.keys m.authority.ownKeys) (hsign : ∀ p, T.usable ⟨p, sign p⟩ k = true ∧ T.verifies ⟨p, sign p⟩ k = true)
    (dec : String → Option Delegation) (O : StatusOracle) :
    ∃ mark, (selfSign s t0 id kw).1 = .ok mark ∧ (markOf dec mark).iss = some s.ctx.entityId ∧ (markOf dec mark).sub = some s.ctx.entityId ∧ (markOf dec mark).id = some id ∧
      (verifyTrustMark T V O st (some ⟨markOf dec mark, sign (markOf dec mark)⟩) false).1 = .ok (some (markOf dec mark)) := by
  obtain ⟨mark, h1, h2, h3, -⟩ := C151_self_signed_partial s t0 id kw spec ms hs hid hsub hexp hm
  have hdel : mark.get? "delegation" = none := by rw [h3 "delegation" (by decide), hd.1, hd.2]; rfl
  have f1 : (markOf dec mark).iss = some s.ctx.entityId := by simp [markOf, h2.issuer, strVal]
  have f2 : (markOf dec mark).sub = some s.ctx.entityId := by simp [markOf, h2.subject, strVal]
  have f3 : (markOf dec mark).id = some id := by simp [markOf, h2.id, strVal]
  refine ⟨mark, h1, f1, f2, f3, ?_⟩
  obtain ⟨tc, hsh, -⟩ := genuine_mark T V J member host issued now st h m rank s.ctx.entityId s.ctx.entityId id t0 ⟨markOf dec mark, sign (markOf dec mark)⟩ k w hW hst ho ht hp hnow he hfuel hhints hmd
    hurl honly hstore f1 f2 f3 (by simp [markOf, h2.issued, intVal])
    (by intro e hx; simp [markOf, h2.expires, intVal] at hx; omega) (by simp [markOf, hdel]) hk (hsign _).1 (hsign _).2
  exact hsh O false

/-! The leaf of the example federation, which is registered as a relying party and nothing else, certifies itself. -/
namespace Ex
def signer195 : Signer := { ctx := { entityId := "https://leaf", ownKeys := .int 3 }, spec := [("https://ta/certified", [])] }
end Ex

example : ∃ mark, (selfSign Ex.signer195 50 "https://ta/certified" []).1 = .ok mark ∧ (markOf (fun _ => none) mark).iss = some "https://leaf" ∧
    (markOf (fun _ => none) mark).sub = some "https://leaf" ∧ (markOf (fun _ => none) mark).id = some "https://ta/certified" ∧
    (verifyTrustMark Ex.T Ex.env142 (fun _ _ _ => .error .connectionError) Chains.Ex.st (some ⟨markOf (fun _ => none) mark, 3⟩) false).1 = .ok (some (markOf (fun _ => none) mark)) :=
  C195_self_made Ex.T Ex.env142 Chains.Ex.J (Chains.Ex.member133 []) Chains.Ex.host133 0 100 Chains.Ex.st [] Chains.Ex.mLeaf Chains.Ex.rank109 3
    (Chains.Ex.wellKept133 [] (.inl rfl)) rfl rfl (by simp) (by simp) (by simp) (by decide) Chains.Ex.url133 Chains.Ex.onlyKeys133
    Ex.signer195 50 "https://ta/certified" [] [] [] rfl (by decide) (by decide) rfl rfl rfl rfl rfl rfl rfl ⟨rfl, rfl⟩ (by decide) (fun _ => 3) (by decide) (fun p => ⟨rfl, by simp [Ex.T]⟩) (fun _ => none) _

/-- Two marks of the leaf that differ in everything but the signature. -/
example : ((verifyMark Ex.T Ex.V Ex.st (some (Ex.mark "other")) "https://ta").1 = .ok (some (Ex.mark "other").payload) ↔
    (verifyMark Ex.T Ex.V Ex.st (some (Ex.mark "tm")) "https://ta").1 = .ok (some (Ex.mark "tm").payload)) :=
  (C195_any_mark Ex.T Ex.V Ex.st (Ex.mark "tm") (Ex.mark "other") "https://ta" "https://leaf" "https://rp" "tm" "https://rp" "other" 1 1 rfl rfl rfl rfl (by intro e he; cases he; decide) rfl
    rfl rfl rfl rfl (by intro e he; cases he; decide) rfl (fun _ => rfl) (fun _ => rfl) rfl).1

end Fed.TrustMarks
