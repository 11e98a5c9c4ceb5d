import Verif.TrustMarks.Life
import Verif.TrustMarks.VerifyProps
import Verif.Client.RequestsProps
import Verif.Chains.ServedProps
/-
Property C142: what becomes of a trust mark that is issued and verified by this software.
-/
namespace Fed.Chains
open Fed Verify

theorem runAll_append (L : Lib) (jar : KeyJar) (a b : List (List Doc)) : runAll L jar (a ++ b) = runAll L (runAll L jar a) b := by
  simp [runAll, List.foldl_append]

/-- After a resolution the keys declared in the returned chains are held. -/
theorem getVerified_declared {V : Env} {st : State} {entity stopAt : String} {out : List TrustChain} (h : (getVerified V st entity stopAt).1 = .ok out) {tc : TrustChain} (ht : tc ∈ out)
    {j : Jws} (hj : some j ∈ tc.chain) {ks : List Key} (hks : j.payload.jwks = some ks) {k : Key} (hk : k ∈ ks) : k ∈ (getVerified V st entity stopAt).2.jar.keysOf j.payload.sub := by
  obtain ⟨f, ec, tcs, _, h2, h3, h4, -⟩ := getVerified_ok h
  obtain ⟨tc0, hm, ha⟩ := (applyPolicies_mem h3).1 tc ht
  obtain ⟨pre, c, post, hd, hv⟩ := (verifyChains_mem h2 tc0).1 hm
  have hch : tc.chain = tc0.chain := by
    obtain ⟨_, _, _, _, ⟨_, _, _, rfl⟩ | ⟨_, _, _, rfl⟩⟩ := applyToChain_ok.1 ha <;> rfl
  rw [h4, hd, runAll_append]
  show k ∈ (runAll V.L (verifyChain V.L (runAll V.L st.jar pre) c).2 post).keysOf _
  refine (runAll_keeps V.L post _ _).1 k ?_
  have hp : j.payload ∈ tc0.verified := by
    obtain ⟨q, qs, x, h1, -, rfl⟩ := verifyChain_ok.1 hv
    obtain ⟨-, h5, -, -⟩ := verifyTrustChain_ok.1 h1
    simp only at hch ⊢
    rw [h5, List.mem_map]
    refine ⟨j, ?_, rfl⟩
    rw [hch] at hj
    simpa [statements] using hj
  exact C38_declared_keys_held V.L _ c tc0 hv _ hp ks hks k hk

/-- A resolution loses no keys. -/
theorem getVerified_keeps {V : Env} {st : State} {entity stopAt : String} {out : List TrustChain} (h : (getVerified V st entity stopAt).1 = .ok out) (e : String) :
    (∀ k ∈ st.jar.keysOf e, k ∈ (getVerified V st entity stopAt).2.jar.keysOf e) ∧ (Dict.has st.jar e = true → Dict.has (getVerified V st entity stopAt).2.jar e = true) := by
  obtain ⟨f, ec, tcs, _, _, _, h4, -⟩ := getVerified_ok h
  rw [h4]
  exact runAll_keeps V.L _ _ _

/-- More keys do no harm to a well-kept federation. -/
theorem WellKept.grow {J : Jose} {L : Lib} {member : String → Option Member} {host : Val → Option String} {jar jar' : KeyJar} {rank : String → Nat} (w : WellKept J L member host jar rank)
    (h : ∀ e, (∀ k ∈ jar.keysOf e, k ∈ jar'.keysOf e) ∧ (Dict.has jar e = true → Dict.has jar' e = true)) : WellKept J L member host jar' rank :=
  { w with anchors := fun e m hm hh => ⟨(h e).2 (w.anchors e m hm hh).1, fun k hk => (h e).1 k ((w.anchors e m hm hh).2 k hk)⟩ }

end Fed.Chains

namespace Fed.TrustMarks
open Fed Verify Client.Requests Chains

/-- The answer to the status question, when the endpoint is served by an issuer. -/
theorem askStatus_answer {text : Val → String} (ht : Faithful text) (unverified : String → Option (Dict Val)) (unpack : String → Except PyErr Info) {serving : String → Option Issuer} (now : Int)
    {ep sub id : String} (hep : ep ≠ "") {is : Issuer} (hs : serving ep = some is) :
    askStatus text unverified unpack serving now (.str ep) sub id = statusAnswer (is.status now { sub := some sub, trustMarkId := some id }) := by
  obtain ⟨r, h1, h2, h3, -⟩ := C141_question_partial text unverified unpack [("sub", .str sub), ("id", .str id), ("trust_mark_id", .str id)] ep "" sub id ht hep rfl rfl rfl
  unfold askStatus
  rw [ht ep, h1]
  simp only [h2, hs, h3]

/-- A mark that its issuer, a member, has signed with a published key and that has not expired: the verdict is the issuer's, or acceptance if it is not asked. -/
theorem genuine_mark (T : TmLib) (V : Env) (J : Jose) (member : String → Option Member) (host : Val → Option String) (issued now : Int) (st : State) (h : List Collect.FRun)
    (m : Member) (rank : String → Nat) (iss sub id : String) (iat : Int) (t : Tm) (k : Key)
    (w : WellKept J V.L member host st.jar rank) (hW : V.W = (world J member host issued).at now)
    (hst : st.coll = Collect.runAll V.L.toCrypto V.P (h.map (Collect.FRun.run (world J member host issued)))) (ho : h.Pairwise fun a b => a.time ≤ b.time)
    (ht : ∀ r ∈ h, r.time ≤ now) (hp : ∀ r ∈ h, Collect.Plain r.entity)
    (hnow : now < issued + 86400 - V.P.delta ∧ now < issued + 86400) (he : member iss = some m) (hfuel : rank iss < V.fuel)
    (hhints : strs m.authority.hints ≠ []) (hmd : m.authority.metadata.truthy = true)
    (hurl : ∀ e m, member e = some m → Constraints.IsUrl e)
    (honly : ∀ e m a ma reg, member e = some m → a ∈ strs m.authority.hints → member a = some ma → ma.authority.subordinate.get? e = some reg → OnlyKeys ma.authority e reg)
    (hstore : st.store.get? iss = none)
    -- the mark
    (t1 : t.payload.iss = some iss) (t2 : t.payload.sub = some sub) (t3 : t.payload.id = some id) (t4 : t.payload.iat = some iat) (t5 : ∀ e, t.payload.exp = some e → now ≤ e)
    (t6 : t.payload.delegation = none) (hk : k ∈ J.keys m.authority.ownKeys) (t7 : T.usable t k = true) (t8 : T.verifies t k = true) :
    ∃ tc : TrustChain, (∀ O check, (verifyTrustMark T V O st (some t) check).1 = if check then askIssuer O tc (some t.payload) else .ok (some t.payload)) ∧
      ∀ ty md, (objs m.authority.metadata).get? ty = some md → ∃ got, tc.metadata.get? ty = some (.obj got) ∧ ∀ c v, Dict.get? md c = some v → Dict.get? got c = some v := by
  have hstop : member "" = none := by
    cases hm : member "" with
    | none => rfl
    | some x => exact absurd rfl (w.id "" x hm).2.1
  obtain ⟨out, o1, o2, -, o3⟩ := C133_keys_suffice V J member host issued now st h "" iss m rank w hW hst ho ht hp hnow (.none hstop) he hfuel hhints hmd hurl honly
  obtain ⟨tc, rest, rfl⟩ : ∃ tc rest, out = tc :: rest := by
    cases out with
    | nil => exact absurd rfl o2
    | cons tc rest => exact ⟨tc, rest, rfl⟩
  obtain ⟨⟨p, p1, -, p3⟩, -, hmeta⟩ := o3 tc (by simp)
  -- the state after the chains of the issuer have been found
  have hgt : getTrustChains V st iss = (.ok (tc :: rest), { (getVerified V st iss).2 with store := (getVerified V st iss).2.store.set iss (tc :: rest) }) := by
    unfold getTrustChains
    rw [hstore]
    simp only
    generalize getVerified V st iss = r at o1 ⊢
    obtain ⟨r1, r2⟩ := r
    simp only at o1
    subst o1
    rfl
  generalize hst1 : ({ (getVerified V st iss).2 with store := (getVerified V st iss).2.store.set iss (tc :: rest) } : State) = st1 at hgt
  have hjar : st1.jar = (getVerified V st iss).2.jar := by rw [← hst1]
  have hcoll : st1.coll = Collect.runAll V.L.toCrypto V.P ((h ++ [(⟨now, V.fuel, iss, ""⟩ : Collect.FRun)]).map (Collect.FRun.run (world J member host issued))) := by
    obtain ⟨_, _, _, _, _, _, _, hc, _⟩ := getVerified_ok o1
    rw [← hst1]
    simp only
    rw [hc, hst, hW]
    simp [Collect.runAll, List.foldl_append, Collect.FRun.run]
  obtain ⟨out2, q1, q2, q3, -⟩ := C133_keys_suffice V J member host issued now st1 (h ++ [(⟨now, V.fuel, iss, ""⟩ : Collect.FRun)]) "" iss m rank
    (w.grow (by rw [hjar]; exact getVerified_keeps o1)) hW hcoll
    (by rw [List.pairwise_append]; exact ⟨ho, by simp, fun a ha b hb => by simp only [List.mem_singleton] at hb; subst hb; exact ht a ha⟩)
    (by intro r hr; rcases List.mem_append.1 hr with hr | hr
        · exact ht r hr
        · simp only [List.mem_singleton] at hr; subst hr; exact Int.le_refl _)
    (by intro r hr; rcases List.mem_append.1 hr with hr | hr
        · exact hp r hr
        · simp only [List.mem_singleton] at hr; subst hr; exact (w.id _ _ he).2.2)
    hnow (.none hstop) he hfuel hhints hmd hurl honly
  obtain ⟨tc2, s1, s2, s3⟩ := q3 p p1
  have hanch : tc2.anchor = tc.anchor := by rw [p3] at s3; exact (Option.some.inj s3).symm
  have pub := (w.cfg (issued := issued) he).2
  have hkey : k ∈ (getVerified V st1 iss).2.jar.keysOf iss := by
    have := getVerified_declared q1 s1 (j := (directory J member issued).cfg iss) (by rw [s2]; simp) pub.jwks hk
    rwa [pub.sub, (w.id _ _ he).1] at this
  have hmark : (verifyMark T V st1 (some t) tc.anchor).1 = .ok (some t.payload) :=
    C52_good_mark_accepted T V st1 t tc.anchor iss sub id iat t1 t2 t3 t4 (by rw [hW]; exact t5) t6 out2 q1 tc2 s1 hanch k hkey t7 t8
  have hshape : ∀ O check, (verifyTrustMark T V O st (some t) check).1 = if check then askIssuer O tc (some t.payload) else .ok (some t.payload) := by
    intro O check
    unfold verifyTrustMark
    simp only [t1, hgt]
    generalize verifyMark T V st1 (some t) tc.anchor = r at hmark ⊢
    obtain ⟨r1, r2⟩ := r
    simp only at hmark
    subst hmark
    cases check <;> rfl
  exact ⟨tc, hshape, hmeta⟩

/-- C142: in a federation that runs this software, whose authorities register keys, a trust mark that its issuer has signed with a published key and that has not expired is accepted; with the issuer
asked, it is accepted exactly if the issuer has issued a mark with that id to that subject that has not expired. The issuer keeps its marks in files and serves the status endpoint it publishes; the
federation may have been explored before, with whatever questions, but the issuer has no stored chains yet. Missing here: marks with a delegation, federations with
policies or constraints in the way, and chains stored earlier (for these see `C142_any_federation_partial`), and other ways of keeping marks (C51). -/
theorem C142_genuine_partial (T : TmLib) (V : Env) (J : Jose) (member : String → Option Member) (host : Val → Option String) (issued now : Int) (st : State) (h : List Collect.FRun)
    (m : Member) (rank : String → Nat) (iss sub id : String) (iat : Int) (t : Tm) (k : Key)
    (w : WellKept J V.L member host st.jar rank) (hW : V.W = (world J member host issued).at now)
    (hst : st.coll = Collect.runAll V.L.toCrypto V.P (h.map (Collect.FRun.run (world J member host issued)))) (ho : h.Pairwise fun a b => a.time ≤ b.time)
    (ht : ∀ r ∈ h, r.time ≤ now) (hp : ∀ r ∈ h, Collect.Plain r.entity)
    (hnow : now < issued + 86400 - V.P.delta ∧ now < issued + 86400) (he : member iss = some m) (hfuel : rank iss < V.fuel)
    (hhints : strs m.authority.hints ≠ []) (hmd : m.authority.metadata.truthy = true)
    (hurl : ∀ e m, member e = some m → Constraints.IsUrl e)
    (honly : ∀ e m a ma reg, member e = some m → a ∈ strs m.authority.hints → member a = some ma → ma.authority.subordinate.get? e = some reg → OnlyKeys ma.authority e reg)
    (hstore : st.store.get? iss = none)
    -- the mark
    (t1 : t.payload.iss = some iss) (t2 : t.payload.sub = some sub) (t3 : t.payload.id = some id) (t4 : t.payload.iat = some iat) (t5 : ∀ e, t.payload.exp = some e → now ≤ e)
    (t6 : t.payload.delegation = none) (hk : k ∈ J.keys m.authority.ownKeys) (t7 : T.usable t k = true) (t8 : T.verifies t k = true)
    -- the issuer
    (text : Val → String) (unverified : String → Option (Dict Val)) (unpack : String → Except PyErr Info) (serving : String → Option Issuer) (fe : Dict Val) (ep : String)
    (spec : Dict Spec) (config : Dict String) (rs : List (Int × String × String)) (hf : Faithful text)
    (e1 : (objs m.authority.metadata).get? "federation_entity" = some fe) (e2 : fe.get? "federation_trust_mark_status_endpoint" = some (.str ep)) (e3 : ep ≠ "")
    (e4 : serving ep = some (createAll ⟨spec, .file ⟨config, []⟩⟩ rs).2) (e5 : OwnFiles config) (e6 : id ∈ config.keys) (e7 : id ≠ "") (e8 : rs.Pairwise fun a b => a.1 ≤ b.1) :
    (verifyTrustMark T V (askStatus text unverified unpack serving now) st (some t) false).1 = .ok (some t.payload) ∧
    ((∃ i ∈ (createAll ⟨spec, .file ⟨config, []⟩⟩ rs).1, i.id = id ∧ i.sub = sub ∧ Live now i) →
      (verifyTrustMark T V (askStatus text unverified unpack serving now) st (some t) true).1 = .ok (some t.payload)) ∧
    ((¬ ∃ i ∈ (createAll ⟨spec, .file ⟨config, []⟩⟩ rs).1, i.id = id ∧ i.sub = sub ∧ Live now i) →
      (verifyTrustMark T V (askStatus text unverified unpack serving now) st (some t) true).1 = .ok none) := by
  obtain ⟨tc, hshape, hmeta⟩ := genuine_mark T V J member host issued now st h m rank iss sub id iat t k w hW hst ho ht hp hnow he hfuel hhints hmd hurl honly hstore t1 t2 t3 t4 t5 t6 hk t7 t8
  obtain ⟨got, g1, g2⟩ := hmeta _ _ e1
  have hask : askIssuer (askStatus text unverified unpack serving now) tc (some t.payload) =
      (statusAnswer ((createAll ⟨spec, .file ⟨config, []⟩⟩ rs).2.status now { sub := some sub, trustMarkId := some id })).bind fun resp =>
        .ok (if saysActive resp then some t.payload else none) := by
    simp only [askIssuer, t2, t3, Dict.get, g1, item, g2 _ _ e2, ok_bind, askStatus_answer hf unverified unpack now e3 e4]
    rfl
  obtain ⟨b, b1, b2⟩ := C53_file_partial spec config rs now id sub e7 e5 e6 e8
  refine ⟨by rw [hshape]; rfl, fun hl => ?_, fun hl => ?_⟩
  · rw [hshape, if_pos rfl, hask, b1, b2.2 hl]
    rfl
  · have : b = false := by cases b; rfl; exact absurd (b2.1 rfl) hl
    rw [hshape, if_pos rfl, hask, b1, this]
    rfl

/-- C142 in the case that matters most: a mark the issuer has issued is accepted as long as it has not expired, whether the issuer is asked or not. -/
theorem C142_issued_partial (T : TmLib) (V : Env) (J : Jose) (member : String → Option Member) (host : Val → Option String) (issued now : Int) (st : State) (h : List Collect.FRun)
    (m : Member) (rank : String → Nat) (iss : String) (sign : TmPayload → Nat) (k : Key)
    (w : WellKept J V.L member host st.jar rank) (hW : V.W = (world J member host issued).at now)
    (hst : st.coll = Collect.runAll V.L.toCrypto V.P (h.map (Collect.FRun.run (world J member host issued)))) (ho : h.Pairwise fun a b => a.time ≤ b.time)
    (ht : ∀ r ∈ h, r.time ≤ now) (hp : ∀ r ∈ h, Collect.Plain r.entity)
    (hnow : now < issued + 86400 - V.P.delta ∧ now < issued + 86400) (he : member iss = some m) (hfuel : rank iss < V.fuel)
    (hhints : strs m.authority.hints ≠ []) (hmd : m.authority.metadata.truthy = true)
    (hurl : ∀ e m, member e = some m → Constraints.IsUrl e)
    (honly : ∀ e m a ma reg, member e = some m → a ∈ strs m.authority.hints → member a = some ma → ma.authority.subordinate.get? e = some reg → OnlyKeys ma.authority e reg)
    (hstore : st.store.get? iss = none)
    (hk : k ∈ J.keys m.authority.ownKeys) (hsign : ∀ i, T.usable (issuedMark sign iss i) k = true ∧ T.verifies (issuedMark sign iss i) k = true)
    (text : Val → String) (unverified : String → Option (Dict Val)) (unpack : String → Except PyErr Info) (serving : String → Option Issuer) (fe : Dict Val) (ep : String)
    (spec : Dict Spec) (config : Dict String) (rs : List (Int × String × String)) (hf : Faithful text)
    (e1 : (objs m.authority.metadata).get? "federation_entity" = some fe) (e2 : fe.get? "federation_trust_mark_status_endpoint" = some (.str ep)) (e3 : ep ≠ "")
    (e4 : serving ep = some (createAll ⟨spec, .file ⟨config, []⟩⟩ rs).2) (e5 : OwnFiles config) (e8 : rs.Pairwise fun a b => a.1 ≤ b.1)
    (i : Info) (hi : i ∈ (createAll ⟨spec, .file ⟨config, []⟩⟩ rs).1) (hlive : Live now i) (hid : i.id ∈ config.keys) (hid0 : i.id ≠ "") (check : Bool) :
    (verifyTrustMark T V (askStatus text unverified unpack serving now) st (some (issuedMark sign iss i)) check).1 = .ok (some (issuedMark sign iss i).payload) := by
  have := C142_genuine_partial T V J member host issued now st h m rank iss i.sub i.id i.iat (issuedMark sign iss i) k w hW hst ho ht hp hnow he hfuel hhints hmd hurl honly hstore rfl rfl rfl rfl hlive rfl
    hk (hsign i).1 (hsign i).2 text unverified unpack serving fe ep spec config rs hf e1 e2 e3 e4 e5 hid hid0 e8
  cases check
  · exact this.1
  · exact this.2.1 ⟨i, hi, rfl, rfl, hlive⟩

/-! ### An example

`im` of the example federation has issued the mark `tm`, valid for 500 seconds, to `a` at 10 and to `b` at 20. -/
namespace Ex
def tm142 : Issuer := (createAll ⟨[("tm", { lifetime := some 500 })], .file ⟨[("tm", "f")], []⟩⟩ [(10, "tm", "https://a"), (20, "tm", "https://b")]).2
def serving142 : String → Option Issuer
  | "https://im/status" => some tm142
  | _ => none
def env142 : Env := Chains.Ex.env ((world Chains.Ex.J (Chains.Ex.member133 []) Chains.Ex.host133 0).at 100)
def verify142 (t : Tm) (check : Bool) : Except PyErr (Option TmPayload) :=
  (verifyTrustMark T env142 (askStatus Client.Requests.Ex.text (fun _ => none) (fun _ => .error .valueError) serving142 100) Chains.Ex.st (some t) check).1
end Ex

/-- The mark issued to `b` is accepted. -/
example : Ex.verify142 (issuedMark (fun _ => 2) "https://im" ⟨"tm", "https://b", 20, some 520⟩) true = .ok (some (issuedMark (fun _ => 2) "https://im" ⟨"tm", "https://b", 20, some 520⟩).payload) := by
  refine C142_issued_partial Ex.T Ex.env142 Chains.Ex.J (Chains.Ex.member133 []) Chains.Ex.host133 0 100 Chains.Ex.st [] Chains.Ex.mIm Chains.Ex.rank109 "https://im" (fun _ => 2) 2
    (Chains.Ex.wellKept133 [] (.inl rfl)) rfl rfl (by simp) (by simp) (by simp) (by decide) rfl (by decide) (by decide) rfl Chains.Ex.url133 Chains.Ex.onlyKeys133 rfl (by decide)
    (fun i => ⟨rfl, by simp [Ex.T, issuedMark]⟩) Client.Requests.Ex.text (fun _ => none) (fun _ => .error .valueError) Ex.serving142 Chains.Ex.imEntity "https://im/status"
    [("tm", { lifetime := some 500 })] [("tm", "f")] [(10, "tm", "https://a"), (20, "tm", "https://b")] Client.Requests.Ex.text_faithful rfl rfl (by decide) rfl ?_ (by simp) _ (by decide +kernel)
    (by intro e he; cases he; decide) (by decide) (by decide) true
  intro i j f hi hj
  simp [Dict.get?_cons] at hi hj
  rw [← hi.1, ← hj.1]

/-- A mark the issuer has signed but not recorded is accepted only if the issuer is not asked. -/
example : Ex.verify142 (issuedMark (fun _ => 2) "https://im" ⟨"tm", "https://c", 20, some 520⟩) true = .ok none ∧
    Ex.verify142 (issuedMark (fun _ => 2) "https://im" ⟨"tm", "https://c", 20, some 520⟩) false = .ok (some (issuedMark (fun _ => 2) "https://im" ⟨"tm", "https://c", 20, some 520⟩).payload) := by
  have ho : OwnFiles [("tm", "f")] := by
    intro i j f hi hj
    simp [Dict.get?_cons] at hi hj
    rw [← hi.1, ← hj.1]
  have := C142_genuine_partial Ex.T Ex.env142 Chains.Ex.J (Chains.Ex.member133 []) Chains.Ex.host133 0 100 Chains.Ex.st [] Chains.Ex.mIm Chains.Ex.rank109 "https://im" "https://c" "tm" 20
    (issuedMark (fun _ => 2) "https://im" ⟨"tm", "https://c", 20, some 520⟩) 2
    (Chains.Ex.wellKept133 [] (.inl rfl)) rfl rfl (by simp) (by simp) (by simp) (by decide) rfl (by decide) (by decide) rfl Chains.Ex.url133 Chains.Ex.onlyKeys133 rfl rfl rfl rfl rfl
    (by intro e he; cases he; decide) rfl (by decide) rfl (by simp [Ex.T, issuedMark]) Client.Requests.Ex.text (fun _ => none) (fun _ => .error .valueError) Ex.serving142 Chains.Ex.imEntity "https://im/status"
    [("tm", { lifetime := some 500 })] [("tm", "f")] [(10, "tm", "https://a"), (20, "tm", "https://b")] Client.Requests.Ex.text_faithful rfl rfl (by decide) rfl ho (by decide) (by decide) (by simp)
  exact ⟨this.2.2 (by decide +kernel), this.1⟩

/-- C142, the other side in full: if the issuer can be resolved and answers questions, there is a verdict on every trust mark of it that has the required claims. -/
def C142_verdict_full : Prop :=
  ∀ (T : TmLib) (V : Env) (O : StatusOracle) (st : State) (t : Tm) (c : String × String × String), t.payload.verify = .ok c →
    (∃ tc tcs, (getTrustChains V st c.1).1 = .ok (tc :: tcs) ∧ ∃ fe ep, tc.metadata.get? "federation_entity" = some (.obj fe) ∧ Dict.get? fe "federation_trust_mark_status_endpoint" = some ep) →
    (∀ ep sub id, ∃ d, O ep sub id = .ok d) → ∃ r, (verifyTrustMark T V O st (some t) true).1 = .ok r

/-- C142 does not hold there: a mark that has expired is not refused when the issuer is to be asked; an exception of type TypeError is raised. -/
theorem C142_verdict_violation : ¬ C142_verdict_full := by
  intro h
  obtain ⟨tc, tcs, h1, h2⟩ : ∃ tc tcs, (getTrustChains Ex.env142 Chains.Ex.st "https://im").1 = .ok (tc :: tcs) ∧
      ∃ fe ep, tc.metadata.get? "federation_entity" = some (.obj fe) ∧ Dict.get? fe "federation_trust_mark_status_endpoint" = some ep := by
    obtain ⟨out, o1, o2, -, o3⟩ := C133_keys_suffice Ex.env142 Chains.Ex.J (Chains.Ex.member133 []) Chains.Ex.host133 0 100 Chains.Ex.st [] "" "https://im" Chains.Ex.mIm Chains.Ex.rank109
      (Chains.Ex.wellKept133 [] (.inl rfl)) rfl rfl (by simp) (by simp) (by simp) (by decide) (.none rfl) rfl (by decide) (by decide) rfl Chains.Ex.url133 Chains.Ex.onlyKeys133
    cases out with
    | nil => exact absurd rfl o2
    | cons tc tcs =>
      obtain ⟨-, -, hm⟩ := o3 tc (by simp)
      obtain ⟨got, g1, g2⟩ := hm "federation_entity" Chains.Ex.imEntity rfl
      refine ⟨tc, tcs, ?_, got, _, g1, g2 "federation_trust_mark_status_endpoint" (.str "https://im/status") rfl⟩
      unfold getTrustChains
      have : Chains.Ex.st.store.get? "https://im" = none := rfl
      rw [this]
      simp only
      generalize getVerified Ex.env142 Chains.Ex.st "https://im" = r at o1 ⊢
      obtain ⟨r1, r2⟩ := r
      simp only at o1
      subst o1
      rfl
  obtain ⟨r, hr⟩ := h Ex.T Ex.env142 (fun _ _ _ => .ok [("active", .bool true)]) Chains.Ex.st (issuedMark (fun _ => 2) "https://im" ⟨"tm", "https://a", 10, some 50⟩) ("https://im", "https://a", "tm") rfl
    ⟨tc, tcs, h1, h2⟩ (fun _ _ _ => ⟨_, rfl⟩)
  have : (verifyTrustMark Ex.T Ex.env142 (fun _ _ _ => .ok [("active", .bool true)]) Chains.Ex.st (some (issuedMark (fun _ => 2) "https://im" ⟨"tm", "https://a", 10, some 50⟩)) true).1 = .error .typeError := by
    generalize hg : getTrustChains Ex.env142 Chains.Ex.st "https://im" = g at h1
    obtain ⟨g1, g2⟩ := g
    simp only at h1
    subst h1
    unfold verifyTrustMark
    simp only [issuedMark, hg]
    rfl
  rw [this] at hr
  cases hr

end Fed.TrustMarks
