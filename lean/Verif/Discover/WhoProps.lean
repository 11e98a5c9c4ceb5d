import Verif.Discover.Who
import Verif.Discover.TrawlProps
import Verif.TrustMarks.VerifyProps
/-
Properties C104 and C105: the who endpoint.
-/
namespace Fed.Discover
open Fed Fed.Verify Fed.Chains

/-- The states the entity can be in while it answers: after resolving entities and verifying trust marks. -/
inductive Reached (M : MarkEnv) (V : Env) (st : State) : State → Prop
  | start : Reached M V st st
  | chains {s e} : Reached M V st s → Reached M V st (getTrustChains V s e).2
  | mark {s m} : Reached M V st s → Reached M V st (TrustMarks.verifyTrustMark M.T V M.O s m true).2

/-- The metadata lists a credential of the type. -/
def OffersCred (md : Dict Val) (ct : String) : Prop :=
  ∃ ci sup l c d types, md.get? "openid_credential_issuer" = some (.obj ci) ∧ Dict.get? ci "credentials_supported" = some sup ∧ iter sup = .ok l ∧ Val.obj c ∈ l ∧
    Dict.get? c "credential_definition" = some (.obj d) ∧ Dict.get? d "type" = some types ∧ pyIn (.str ct) types = .ok true

/-- The entity was found below the trust anchor. -/
def Found (N : Net) (V : Env) (W : Who) (type anchor e : String) : Prop :=
  (anchor = W.entityId ∨ anchor ∈ V.P.anchors) ∧
  ∃ top o ids, N.list anchor none false = .ok (some o) ∧ top ∈ o ∧ trawl N type V.fuel W.entityId top = .ok ids ∧ e ∈ ids

/-- The entity's verified configuration carries a trust mark with the id that verifies and that its issuer says is active. -/
def Holds (M : MarkEnv) (V : Env) (st : State) (id e : String) (about : TrustMarks.TmPayload → Prop) : Prop :=
  ∃ s s' tc rest ec marks m p, Reached M V st s ∧ (getTrustChains V s e).1 = .ok (tc :: rest) ∧ tc.verified.getLast? = some ec ∧ M.marks ec = some marks ∧ m ∈ marks ∧
    Reached M V st s' ∧ (TrustMarks.verifyTrustMark M.T V M.O s' m true).1 = .ok (some p) ∧ p.id = some id ∧ about p

theorem item_ok {v x : Val} {k : String} : TrustMarks.item v k = .ok x ↔ ∃ kvs, v = .obj kvs ∧ Dict.get? kvs k = some x := by
  unfold TrustMarks.item
  cases v with
  | obj kvs =>
    unfold Dict.get
    cases h : Dict.get? kvs k <;> simp [h]
  | _ => simp

theorem anyCredential_ok {ct : String} {l : List Val} {b : Bool} (h : anyCredential ct l = .ok b) :
    b = true ↔ ∃ c d types, Val.obj c ∈ l ∧ Dict.get? c "credential_definition" = some (.obj d) ∧ Dict.get? d "type" = some types ∧ pyIn (.str ct) types = .ok true := by
  induction l with
  | nil => simp only [anyCredential, Except.ok.injEq] at h; subst h; simp
  | cons v l ih =>
    simp only [anyCredential] at h
    cases h1 : TrustMarks.item v "credential_definition" with
    | error e => rw [h1] at h; cases h
    | ok dv =>
      rw [h1] at h
      simp only [ok_bind] at h
      cases h2 : TrustMarks.item dv "type" with
      | error e => rw [h2] at h; cases h
      | ok types =>
        rw [h2] at h
        simp only [ok_bind] at h
        obtain ⟨c, rfl, h1'⟩ := item_ok.1 h1
        obtain ⟨d, rfl, h2'⟩ := item_ok.1 h2
        cases h3 : pyIn (.str ct) types with
        | error e => rw [h3] at h; cases h
        | ok b' =>
          rw [h3] at h
          simp only [ok_bind] at h
          cases b' with
          | true =>
            simp only [if_true, except_pure, Except.ok.injEq] at h
            subst h
            simp only [true_iff]
            exact ⟨c, d, types, by simp, h1', h2', h3⟩
          | false =>
            simp only [Bool.false_eq_true, if_false] at h
            rw [ih h]
            constructor
            · rintro ⟨c', d', t', g1, g2⟩
              exact ⟨c', d', t', by simp [g1], g2⟩
            · rintro ⟨c', d', t', g1, g2, g3, g4⟩
              simp only [List.mem_cons, Val.obj.injEq] at g1
              rcases g1 with rfl | g1
              · rw [g2] at h1'
                cases h1'
                rw [g3] at h2'
                cases h2'
                rw [h3] at g4
                cases g4
              · exact ⟨c', d', t', g1, g2, g3, g4⟩

theorem offersType_ok {ct : String} {o : Option (Dict Val)} {b : Bool} (h : offersType ct o = .ok b) : ∃ md, o = some md ∧ (b = true ↔ OffersCred md ct) := by
  unfold offersType at h
  cases o with
  | none => cases h
  | some md =>
    refine ⟨md, rfl, ?_⟩
    simp only [Dict.get] at h
    cases h0 : Dict.get? md "openid_credential_issuer" with
    | none => rw [h0] at h; cases h
    | some civ =>
      rw [h0] at h
      simp only [ok_bind] at h
      cases h1 : TrustMarks.item civ "credentials_supported" with
      | error e => rw [h1] at h; cases h
      | ok sup =>
        rw [h1] at h
        simp only [ok_bind] at h
        obtain ⟨ci, rfl, h1'⟩ := item_ok.1 h1
        cases h2 : iter sup with
        | error e => rw [h2] at h; cases h
        | ok l =>
          rw [h2] at h
          simp only [ok_bind] at h
          rw [anyCredential_ok h]
          constructor
          · rintro ⟨c, d, t, g⟩
            exact ⟨ci, sup, l, c, d, t, h0, h1', h2, g⟩
          · rintro ⟨ci', sup', l', c, d, t, g0, g1, g2, g⟩
            rw [h0] at g0
            cases g0
            rw [h1'] at g1
            cases g1
            rw [h2] at g2
            cases g2
            exact ⟨c, d, t, g⟩

theorem getVerifiedMetadata_state (V : Env) (st : State) (e : String) : (getVerifiedMetadata V st e).2 = (getTrustChains V st e).2 := by
  unfold getVerifiedMetadata
  generalize getTrustChains V st e = r
  obtain ⟨r, s⟩ := r
  cases r <;> rfl

theorem offering_ok {M : MarkEnv} {V : Env} {ct : String} {st0 : State} : ∀ {es : List String} {st : State} {out : List String},
    Reached M V st0 st → (offering V ct es st).1 = .ok out → Reached M V st0 (offering V ct es st).2 ∧ (∀ e ∈ out, e ∈ es) ∧
      ∀ e ∈ es, ∃ s md, Reached M V st0 s ∧ (getVerifiedMetadata V s e).1 = .ok (some md) ∧ (OffersCred md ct → e ∈ out) ∧
        (es.Nodup → e ∈ out → OffersCred md ct)
  | [], st, out, hr, h => by
    simp only [offering, Except.ok.injEq] at h
    subst h
    exact ⟨hr, by simp, by simp⟩
  | e :: es, st, out, hr, h => by
    simp only [offering] at h ⊢
    have hr1 : Reached M V st0 (getVerifiedMetadata V st e).2 := by rw [getVerifiedMetadata_state]; exact .chains hr
    cases hm : getVerifiedMetadata V st e with
    | mk r st1 =>
      rw [hm] at h hr1
      cases r with
      | error err => cases h
      | ok md =>
        simp only at h ⊢
        cases ho : offersType ct md with
        | error err => rw [ho] at h; cases h
        | ok b =>
          rw [ho] at h
          obtain ⟨md, rfl, hb⟩ := offersType_ok ho
          simp only at h ⊢
          have ih := @offering_ok M V ct st0 es st1
          generalize offering V ct es st1 = r at h ih ⊢
          obtain ⟨r, st2⟩ := r
          cases r with
          | error err => cases h
          | ok rest =>
            simp only [Except.ok.injEq] at h
            obtain ⟨i1, i2, i3⟩ := ih hr1 rfl
            have hmem : ∀ x, x ∈ out ↔ (b = true ∧ x = e) ∨ x ∈ rest := by
              intro x
              rw [← h]
              cases b <;> simp
            refine ⟨i1, ?_, ?_⟩
            · intro x hx
              rcases (hmem x).1 hx with ⟨-, rfl⟩ | hx
              · simp
              · simp [i2 x hx]
            · intro x hx0
              rcases List.mem_cons.1 hx0 with rfl | hx
              · refine ⟨st, md, hr, by rw [hm], fun ho => (hmem _).2 (Or.inl ⟨hb.2 ho, rfl⟩), fun hnd hx => ?_⟩
                rcases (hmem _).1 hx with ⟨h1, -⟩ | h1
                · exact hb.1 h1
                · exact absurd (i2 _ h1) (List.nodup_cons.1 hnd).1
              · obtain ⟨s, md', g1, g2, g3, g4⟩ := i3 x hx
                refine ⟨s, md', g1, g2, fun ho => (hmem x).2 (Or.inr (g3 ho)), fun hnd hx' => ?_⟩
                rcases (hmem x).1 hx' with ⟨-, rfl⟩ | h1
                · exact absurd hx (List.nodup_cons.1 hnd).1
                · exact g4 (List.nodup_cons.1 hnd).2 h1

theorem holding_ok {M : MarkEnv} {V : Env} {id e : String} {st0 : State} : ∀ {ms : List (Option TrustMarks.Tm)} {st : State} {out : List String},
    Reached M V st0 st → (holding M V id e ms st).1 = .ok out → Reached M V st0 (holding M V id e ms st).2 ∧
      (∀ x ∈ out, x = e ∧ ∃ m ∈ ms, ∃ s p, Reached M V st0 s ∧ (TrustMarks.verifyTrustMark M.T V M.O s m true).1 = .ok (some p) ∧ p.id = some id) ∧
      ∀ m ∈ ms, ∃ s p, Reached M V st0 s ∧ (TrustMarks.verifyTrustMark M.T V M.O s m true).1 = .ok (some p) ∧ (p.id = some id → e ∈ out)
  | [], st, out, hr, h => by
    simp only [holding, Except.ok.injEq] at h
    subst h
    exact ⟨hr, by simp, by simp⟩
  | m :: ms, st, out, hr, h => by
    simp only [holding] at h ⊢
    have hr1 : Reached M V st0 (TrustMarks.verifyTrustMark M.T V M.O st m true).2 := .mark hr
    cases hm : TrustMarks.verifyTrustMark M.T V M.O st m true with
    | mk r st1 =>
      rw [hm] at h hr1
      cases r with
      | error err => cases h
      | ok o =>
        cases o with
        | none => cases h
        | some p =>
          simp only at h ⊢
          have ih := @holding_ok M V id e st0 ms st1
          generalize holding M V id e ms st1 = r at h ih ⊢
          obtain ⟨r, st2⟩ := r
          cases r with
          | error err => cases h
          | ok rest =>
            simp only [Except.ok.injEq] at h
            obtain ⟨i1, i2, i3⟩ := ih hr1 rfl
            have hmem : ∀ x, x ∈ out ↔ (p.id = some id ∧ x = e) ∨ x ∈ rest := by
              intro x
              rw [← h]
              split
              · next hp => simp [hp]
              · next hp => simp [hp]
            refine ⟨i1, ?_, ?_⟩
            · intro x hx
              rcases (hmem x).1 hx with ⟨hp, rfl⟩ | hx
              · exact ⟨rfl, m, by simp, st, p, hr, by rw [hm], hp⟩
              · obtain ⟨g1, m', g2, g3⟩ := i2 x hx
                exact ⟨g1, m', by simp [g2], g3⟩
            · intro m' hm'
              rcases List.mem_cons.1 hm' with rfl | hm'
              · exact ⟨st, p, hr, by rw [hm], fun hp => (hmem e).2 (Or.inl ⟨hp, rfl⟩)⟩
              · obtain ⟨s, p', g1, g2, g3⟩ := i3 m' hm'
                exact ⟨s, p', g1, g2, fun hp => (hmem e).2 (Or.inr (g3 hp))⟩

/-- All of the entity's trust marks verify, and with the right id it is named in `out`. -/
def AllMarks (M : MarkEnv) (V : Env) (st : State) (id e : String) (out : List String) : Prop :=
  ∃ s tc rest ec, Reached M V st s ∧ (getTrustChains V s e).1 = .ok (tc :: rest) ∧ tc.verified.getLast? = some ec ∧
    ∀ m ∈ (M.marks ec).getD [], ∃ s' p, Reached M V st s' ∧ (TrustMarks.verifyTrustMark M.T V M.O s' m true).1 = .ok (some p) ∧ (p.id = some id → e ∈ out)

theorem marked_ok {M : MarkEnv} {V : Env} {id : String} {st0 : State} : ∀ {es : List String} {st : State} {out : List String},
    Reached M V st0 st → (marked M V id es st).1 = .ok (some out) →
      (∀ e ∈ out, e ∈ es ∧ Holds M V st0 id e fun _ => True) ∧ ∀ e ∈ es, AllMarks M V st0 id e out
  | [], st, out, hr, h => by
    simp only [marked, Except.ok.injEq, Option.some.injEq] at h
    subst h
    simp
  | e :: es, st, out, hr, h => by
    simp only [marked] at h
    have hr1 : Reached M V st0 (getTrustChains V st e).2 := .chains hr
    cases hm : getTrustChains V st e with
    | mk r st1 =>
      rw [hm] at h hr1
      cases r with
      | error err => cases h
      | ok tcs =>
        cases tcs with
        | nil => cases h
        | cons tc rest =>
          simp only at h
          cases hl : tc.verified.getLast? with
          | none => rw [hl] at h; cases h
          | some ec =>
            rw [hl] at h
            simp only at h
            have hh := @holding_ok M V id e st0 ((M.marks ec).getD []) st1
            generalize holding M V id e ((M.marks ec).getD []) st1 = r at h hh
            obtain ⟨r, st2⟩ := r
            cases r with
            | error err => cases h
            | ok here =>
              simp only at h
              obtain ⟨i1, i2, i3⟩ := hh hr1 rfl
              have ih := @marked_ok M V id st0 es st2
              generalize marked M V id es st2 = r at h ih
              obtain ⟨r, st3⟩ := r
              cases r with
              | error err => cases h
              | ok o =>
                cases o with
                | none => cases h
                | some more =>
                  simp only [Except.ok.injEq, Option.some.injEq] at h
                  subst h
                  obtain ⟨j1, j2⟩ := ih i1 rfl
                  refine ⟨?_, ?_⟩
                  · intro x hx
                    rcases List.mem_append.1 hx with hx | hx
                    · obtain ⟨rfl, m, g1, s, p, g2, g3, g4⟩ := i2 x hx
                      cases hmk : M.marks ec with
                      | none => rw [hmk] at g1; cases g1
                      | some marks =>
                        rw [hmk] at g1
                        exact ⟨by simp, st, s, tc, rest, ec, marks, m, p, hr, by rw [hm], hl, hmk, g1, g2, g3, g4, trivial⟩
                    · obtain ⟨g1, g2⟩ := j1 x hx
                      exact ⟨by simp [g1], g2⟩
                  · intro x hx
                    rcases List.mem_cons.1 hx with rfl | hx
                    · refine ⟨st, tc, rest, ec, hr, by rw [hm], hl, fun m hmm => ?_⟩
                      obtain ⟨s, p, g1, g2, g3⟩ := i3 m hmm
                      exact ⟨s, p, g1, g2, fun hp => List.mem_append.2 (Or.inl (g3 hp))⟩
                    · obtain ⟨s, tc', rest', ec', g1, g2, g3, g4⟩ := j2 x hx
                      refine ⟨s, tc', rest', ec', g1, g2, g3, fun m hmm => ?_⟩
                      obtain ⟨s', p, k1, k2, k3⟩ := g4 m hmm
                      exact ⟨s', p, k1, k2, fun hp => List.mem_append.2 (Or.inr (k3 hp))⟩

theorem startingPoints_ok {N : Net} {V : Env} {W : Who} {anchor : String} {l : List String} (h : startingPoints N V W anchor = .ok l) :
    (anchor = W.entityId ∨ anchor ∈ V.P.anchors) ∧ N.list anchor none false = .ok (some l) := by
  have key : ∀ a, (do match ← N.list a none false with | some l => pure l | none => throw PyErr.typeError) = .ok l → N.list a none false = .ok (some l) := by
    intro a h
    cases hl : N.list a none false with
    | error e => rw [hl] at h; cases h
    | ok o =>
      rw [hl] at h
      cases o with
      | none => cases h
      | some l' => simp only [ok_bind, except_pure, Except.ok.injEq] at h; rw [h]
  unfold startingPoints at h
  split at h
  · next hc =>
    rw [← hc.2] at h
    exact ⟨Or.inl hc.2, key _ h⟩
  · split at h
    · split at h
      · cases h
      · next hc => exact ⟨Or.inr (Classical.not_not.1 hc), key _ h⟩
    · cases h

/-- What an answer of the endpoint rests on. -/
theorem who_ok {N : Net} {M : MarkEnv} {V : Env} {W : Who} {st : State} {req : WhoRequest} {anchor : String} {out : List String}
    (h : (who N M V W st req anchor).1 = .ok (some out)) :
    (∀ e ∈ out, req.credentialType.getD W.credentialType ≠ "" ∧ Found N V W (req.entityType.getD W.entityType) anchor e ∧
      (∃ s md, Reached M V st s ∧ (getVerifiedMetadata V s e).1 = .ok (some md) ∧ OffersCred md (req.credentialType.getD W.credentialType)) ∧
      (req.markId.getD W.markId ≠ "" → Holds M V st (req.markId.getD W.markId) e fun _ => True)) ∧
    (req.credentialType.getD W.credentialType ≠ "" → ∀ e, Found N V W (req.entityType.getD W.entityType) anchor e →
      ∃ s md, Reached M V st s ∧ (getVerifiedMetadata V s e).1 = .ok (some md) ∧ (OffersCred md (req.credentialType.getD W.credentialType) →
        (req.markId.getD W.markId = "" → e ∈ out) ∧ (req.markId.getD W.markId ≠ "" → AllMarks M V st (req.markId.getD W.markId) e out))) := by
  unfold who at h
  generalize hct : req.credentialType.getD W.credentialType = ct at h ⊢
  generalize hid : req.markId.getD W.markId = id at h ⊢
  generalize hty : req.entityType.getD W.entityType = type at h ⊢
  cases hs : startingPoints N V W anchor with
  | error e => rw [hs] at h; cases h
  | ok l =>
    rw [hs] at h
    simp only [ok_bind] at h
    obtain ⟨t1, t2⟩ := startingPoints_ok hs
    cases hg : gather (trawl N type V.fuel W.entityId) l with
    | error e => rw [hg] at h; cases h
    | ok servers =>
      rw [hg] at h
      simp only at h
      obtain ⟨g1, g2⟩ := gather_mem hg
      have found : ∀ e, e ∈ V.K.enum servers ↔ Found N V W type anchor e := by
        intro e
        rw [V.K.mem_enum, g2]
        constructor
        · rintro ⟨top, h1, ids, h2, h3⟩
          exact ⟨t1, top, l, ids, t2, h1, h2, h3⟩
        · rintro ⟨-, top, o, ids, h0, h1, h2, h3⟩
          rw [t2] at h0
          cases h0
          exact ⟨top, h1, ids, h2, h3⟩
      by_cases hc : ct = ""
      · rw [if_neg (by simpa using hc)] at h
        have hout : out = [] := by
          simp only at h
          split at h
          · simpa [marked] using h.symm
          · simpa using h.symm
        subst hout
        exact ⟨by simp, fun h => absurd hc h⟩
      · rw [if_pos hc] at h
        have ho := @offering_ok M V ct st (V.K.enum servers) st
        generalize offering V ct (V.K.enum servers) st = r at h ho
        obtain ⟨r, st1⟩ := r
        cases r with
        | error e => cases h
        | ok srv =>
          obtain ⟨o1, o2, o3⟩ := ho .start rfl
          simp only at h o1
          have hsrv : ∀ e ∈ srv, Found N V W type anchor e ∧ ∃ s md, Reached M V st s ∧ (getVerifiedMetadata V s e).1 = .ok (some md) ∧ OffersCred md ct := by
            intro e he
            obtain ⟨s, md, k1, k2, -, k4⟩ := o3 e (o2 e he)
            exact ⟨(found e).1 (o2 e he), s, md, k1, k2, k4 (V.K.nodup_enum _) he⟩
          by_cases hi : id = ""
          · rw [if_neg (by simpa using hi)] at h
            simp only [Except.ok.injEq, Option.some.injEq] at h
            subst h
            refine ⟨fun e he => ⟨hc, (hsrv e he).1, (hsrv e he).2, fun h => absurd hi h⟩, fun _ e he => ?_⟩
            obtain ⟨s, md, k1, k2, k3, -⟩ := o3 e ((found e).2 he)
            exact ⟨s, md, k1, k2, fun ho => ⟨fun _ => k3 ho, fun h => absurd hi h⟩⟩
          · rw [if_pos hi] at h
            obtain ⟨m1, m2⟩ := marked_ok o1 h
            refine ⟨fun e he => ⟨hc, (hsrv e (m1 e he).1).1, (hsrv e (m1 e he).1).2, fun _ => (m1 e he).2⟩, fun _ e he => ?_⟩
            obtain ⟨s, md, k1, k2, k3, -⟩ := o3 e ((found e).2 he)
            exact ⟨s, md, k1, k2, fun ho => ⟨fun h => absurd h hi, fun _ => m2 e (k3 ho)⟩⟩

/-! ## C104 -/

/-- C104 in full. -/
def C104_full : Prop :=
  ∀ (N : Net) (M : MarkEnv) (V : Env) (W : Who) (st : State) (req : WhoRequest) (anchor : String) (out : List String),
    (who N M V W st req anchor).1 = .ok (some out) → ∀ e ∈ out, Found N V W (req.entityType.getD W.entityType) anchor e ∧
      (req.credentialType.getD W.credentialType ≠ "" → ∃ s md, Reached M V st s ∧ (getVerifiedMetadata V s e).1 = .ok (some md) ∧
        OffersCred md (req.credentialType.getD W.credentialType)) ∧
      (req.markId.getD W.markId ≠ "" → Holds M V st (req.markId.getD W.markId) e fun p => p.sub = some e)

namespace Ex
open _root_.Fed.Chains.Ex (about fe)
def ci : Policy.Metadata := [("credentials_supported", .arr [.obj [("credential_definition", .obj [("type", .arr [.str "Pid"])])]])]
/-- An issuer of credentials, and an issuer of trust marks. -/
def wconf : String → Option Jws
  | "https://ta" => some (Chains.Ex.conf "https://ta" none [("federation_entity", [("federation_fetch_endpoint", .str "fetch"), ("federation_list_endpoint", .str "list")])])
  | "https://leaf" => some (Chains.Ex.conf "https://leaf" (some ["https://ta"]) [("federation_entity", []), ("openid_credential_issuer", ci)])
  | "https://im" => some (Chains.Ex.conf "https://im" (some ["https://ta"]) [("federation_entity", [("federation_trust_mark_status_endpoint", .str "status")])])
  | _ => none
def wworld : Collect.World where
  now := 0
  config e := match wconf e with | some j => .ok (some j) | none => .error .missingPage
  fetch _ a e := .ok (some (about a e))
def wenv : Env := Chains.Ex.env wworld
def wnet : Net where
  cached _ := none
  statement a e := .ok (about a e).payload
  configuration e := match wconf e with | some j => .ok j.payload | none => .error .missingPage
  list
    | "https://ta", _, _ => .ok (some ["https://leaf", "https://im"])
    | _, _, _ => .ok none
def wmark (sub : String) : TrustMarks.Tm := ⟨{ iss := some "https://im", sub := some sub, id := some "tm", iat := some 0 }, 2⟩
def wmarks (sub : String) : MarkEnv where
  T := TrustMarks.Ex.T
  O _ _ _ := .ok [("active", .bool true)]
  marks p := if p.sub = "https://leaf" then some [some (wmark sub)] else none
def wwho : Who := whoInit "https://ta" (some "openid_credential_issuer") none none
def wreq : WhoRequest := { credentialType := some "Pid", markId := some "tm" }
def wst : State := { jar := [("https://ta", [1])] }
end Ex

example : (who Ex.wnet (Ex.wmarks "https://leaf") Ex.wenv Ex.wwho Ex.wst Ex.wreq "https://ta").1 = .ok (some ["https://leaf"]) := by decide +kernel

/-- C104 does not hold: an entity is named for a trust mark that was issued to somebody else. -/
theorem C104_foreign_mark_violation : ¬ C104_full := by
  intro h
  obtain ⟨-, -, h3⟩ := h Ex.wnet (Ex.wmarks "https://other") Ex.wenv Ex.wwho Ex.wst Ex.wreq "https://ta" ["https://leaf"] (by decide +kernel) "https://leaf" (by simp)
  obtain ⟨s, s', tc, rest, ec, marks, m, p, -, -, -, hm, hmm, -, hv, -, hp⟩ := h3 (by decide)
  have hm' : m = some (Ex.wmark "https://other") := by
    simp only [Ex.wmarks] at hm
    split at hm
    · cases hm
      simpa using hmm
    · cases hm
  subst hm'
  obtain ⟨t, iss, tc', rest', h1, -, -, h4, -⟩ := TrustMarks.C82_returned_partial _ _ _ _ _ _ _ hv
  cases h1
  obtain ⟨sub, h5, h6⟩ := TrustMarks.C81_signed_subject_partial _ _ _ _ _ _ _ _ h4
  rw [h5] at hp
  rw [hp] at h6
  exact absurd h6 (by decide)

/-- C104 as far as it holds: every entity that is named was found below a trusted anchor, its resolved metadata offers the credential type, and its verified configuration carries a trust mark with the id
that verifies and is active. Missing: that the mark was issued to the entity. -/
theorem C104_named_partial (N : Net) (M : MarkEnv) (V : Env) (W : Who) (st : State) (req : WhoRequest) (anchor : String) (out : List String)
    (h : (who N M V W st req anchor).1 = .ok (some out)) (e : String) (he : e ∈ out) :
    Found N V W (req.entityType.getD W.entityType) anchor e ∧
    (∃ s md, Reached M V st s ∧ (getVerifiedMetadata V s e).1 = .ok (some md) ∧ OffersCred md (req.credentialType.getD W.credentialType)) ∧
    (req.markId.getD W.markId ≠ "" → Holds M V st (req.markId.getD W.markId) e fun _ => True) :=
  ((who_ok h).1 e he).2

/-- In a federation whose members answer truthfully, every entity that is named is below the anchor and of the wanted type. -/
theorem C104_honest_partial (F : Federation) (N : Net) (hh : Honest F N) (hl : ∀ a o, N.list a none false = .ok (some o) → ∀ e ∈ o, F.below a e)
    (M : MarkEnv) (V : Env) (W : Who) (st : State) (req : WhoRequest) (anchor : String) (out : List String)
    (h : (who N M V W st req anchor).1 = .ok (some out)) (e : String) (he : e ∈ out) : F.Under anchor e ∧ F.has e (req.entityType.getD W.entityType) := by
  obtain ⟨⟨-, top, o, ids, h1, h2, h3, h4⟩, -⟩ := C104_named_partial N M V W st req anchor out h e he
  obtain ⟨h5, h6⟩ := (C99_exactly F N hh _ _ _ _ _ h3 e).1 h4
  exact ⟨h5.head (hl _ _ h1 _ h2), h6⟩

/-! ## C105 -/

/-- C105 in full: an entity that is found, offers the credential type if one is asked for, and all of whose trust marks verify, one of them with the id if one is asked for, is named. -/
def C105_full : Prop :=
  ∀ (N : Net) (M : MarkEnv) (V : Env) (W : Who) (st : State) (req : WhoRequest) (anchor : String) (out : List String),
    (who N M V W st req anchor).1 = .ok (some out) → ∀ e, Found N V W (req.entityType.getD W.entityType) anchor e →
      (req.credentialType.getD W.credentialType ≠ "" → ∀ s md, Reached M V st s → (getVerifiedMetadata V s e).1 = .ok (some md) →
        OffersCred md (req.credentialType.getD W.credentialType)) →
      req.markId.getD W.markId = "" → e ∈ out

/-- C105 does not hold: for entity types other than credential issuers nothing is ever named, unless the request gives a credential type. -/
theorem C105_empty_violation : ¬ C105_full := by
  intro h
  have := h Ex.wnet (Ex.wmarks "https://leaf") Ex.wenv Ex.wwho Ex.wst {} "https://ta" [] (by decide +kernel) "https://leaf"
    ⟨Or.inl rfl, "https://leaf", ["https://leaf", "https://im"], ["https://leaf"], rfl, by simp, by decide +kernel, by simp⟩ (fun h => absurd rfl h) (by decide)
  cases this

/-- And with a credential type to look for: an entity that is found is resolved, and if its metadata offers the type it is named, or, if there is a trust mark to look for, all its trust marks
are verified and it is named if one of them has the id. Missing: requests without a credential type. -/
theorem C105_complete_partial (N : Net) (M : MarkEnv) (V : Env) (W : Who) (st : State) (req : WhoRequest) (anchor : String) (out : List String)
    (h : (who N M V W st req anchor).1 = .ok (some out)) (hct : req.credentialType.getD W.credentialType ≠ "") (e : String)
    (he : Found N V W (req.entityType.getD W.entityType) anchor e) :
    ∃ s md, Reached M V st s ∧ (getVerifiedMetadata V s e).1 = .ok (some md) ∧ (OffersCred md (req.credentialType.getD W.credentialType) →
      (req.markId.getD W.markId = "" → e ∈ out) ∧ (req.markId.getD W.markId ≠ "" → AllMarks M V st (req.markId.getD W.markId) e out)) :=
  (who_ok h).2 hct e he

end Fed.Discover
