import Verif.Server.Resolve
import Verif.Server.FetchProps
import Verif.Chains.Props
import Verif.Collect.Held
/-
Properties C58, C89-C91: the resolve endpoint.
-/
namespace Fed.Server
open Fed Fed.Verify Fed.Chains

/-- What it takes for a resolve request to be answered. -/
theorem resolve_ok {R : Resolver} {V : Env} {st : State} {req : ResolveRequest} {withTa : Bool} {p : Dict Val}
    (h : (resolve R V st req withTa).1 = .ok p) :
    ∃ sub anchor out tc md ch, req.sub = some sub ∧ req.anchor = some anchor ∧ (getVerified V st sub anchor).1 = .ok out ∧
      out.find? (fun tc => decide (anchor = tc.anchor)) = some tc ∧ chosenMetadata (some tc) req.type = .ok md ∧
      (getChain R V.P V.W (getVerified V st sub anchor).2.coll tc.issPath anchor withTa).1 = .ok ch ∧
      createStatement R.ownKeys V.W.now R.entityId sub none [("metadata", .obj md), ("trust_chain", .arr ch)] = .ok p := by
  unfold resolve at h
  cases hA : req.anchor with
  | none => rw [hA] at h; cases h
  | some anchor =>
    cases hS : req.sub with
    | none => rw [hA, hS] at h; cases h
    | some sub =>
      rw [hA, hS] at h
      simp only at h
      refine ⟨sub, anchor, ?_⟩
      generalize getVerified V st sub anchor = r at h ⊢
      obtain ⟨r1, st1⟩ := r
      cases r1 with
      | error e => cases h
      | ok out =>
        simp only at h
        cases hc : out.find? (fun tc => decide (anchor = tc.anchor)) with
        | none => rw [hc] at h; cases h
        | some tc =>
          rw [hc] at h
          cases hm : chosenMetadata (some tc) req.type with
          | error e => rw [hm] at h; cases h
          | ok md =>
            rw [hm] at h
            simp only at h
            generalize hg : getChain R V.P V.W st1.coll tc.issPath anchor withTa = g at h
            obtain ⟨g1, coll⟩ := g
            cases g1 with
            | error e => cases h
            | ok ch => exact ⟨out, tc, md, ch, rfl, rfl, rfl, hc, hm, by rw [hg], h⟩

/-! ## C58 -/

/-- C58: an answer is this entity's statement about the subject asked for. It carries the metadata, or the metadata of the entity type asked for,
of a chain that was verified now, from the subject to the anchor asked for. -/
theorem C58_answer (R : Resolver) (V : Env) (st : State) (req : ResolveRequest) (withTa : Bool) (p : Dict Val)
    (h : (resolve R V st req withTa).1 = .ok p) :
    ∃ sub anchor out tc, req.sub = some sub ∧ req.anchor = some anchor ∧ (getVerified V st sub anchor).1 = .ok out ∧ tc ∈ out ∧
      tc.anchor = anchor ∧ Provenance V st sub tc ∧
      p.get? "iss" = some (.str R.entityId) ∧ p.get? "sub" = some (.str sub) ∧ p.get? "jwks" = some R.ownKeys ∧
      (req.type = none → tc.metadata ≠ [] → p.get? "metadata" = some (.obj tc.metadata)) ∧
      ∀ t, req.type = some t → ∃ v, Dict.get? tc.metadata t = some v ∧ p.get? "metadata" = some (.obj [(t, v)]) := by
  obtain ⟨sub, anchor, out, tc, md, ch, h1, h2, h3, h4, h5, -, h7⟩ := resolve_ok h
  obtain ⟨c1, c2, -, c4, -, -, -, c8, -, -, -, -⟩ := C59_payload _ _ _ _ _ _ _ h7
  have hm := List.mem_of_find?_eq_some h4
  have ha : anchor = tc.anchor := by simpa using List.find?_some h4
  refine ⟨sub, anchor, out, tc, h1, h2, h3, hm, ha.symm, C76_provenance V st sub out h3 tc hm, c2, c1, ?_, ?_, ?_⟩
  · rw [c8 (by simp [Dict.get?_cons])]; rfl
  · intro ht hne
    rw [c4 "metadata" (by simp)]
    rw [ht] at h5
    simp only [chosenMetadata, Except.ok.injEq] at h5
    subst h5
    cases hmd : tc.metadata with
    | nil => exact absurd hmd hne
    | cons x xs => rfl
  · intro t ht
    rw [c4 "metadata" (by simp)]
    rw [ht] at h5
    simp only [chosenMetadata, Dict.get] at h5
    cases hv : Dict.get? tc.metadata t with
    | none => rw [hv] at h5; cases h5
    | some v =>
      rw [hv] at h5
      simp only [ok_bind, Except.ok.injEq] at h5
      subst h5
      exact ⟨v, rfl, rfl⟩

/-- C58: without a verified chain to the anchor asked for there is no answer. -/
theorem C58_no_chain (R : Resolver) (V : Env) (st : State) (req : ResolveRequest) (withTa : Bool) (sub anchor : String)
    (h1 : req.sub = some sub) (h2 : req.anchor = some anchor)
    (h : ∀ out, (getVerified V st sub anchor).1 = .ok out → ∀ tc ∈ out, tc.anchor ≠ anchor) :
    ∃ e, (resolve R V st req withTa).1 = .error e := by
  cases hr : (resolve R V st req withTa).1 with
  | error e => exact ⟨e, rfl⟩
  | ok p =>
    obtain ⟨sub', anchor', out, tc, e1, e2, h3, h4, h5, -⟩ := C58_answer _ _ _ _ _ _ hr
    rw [h1] at e1; rw [h2] at e2; cases e1; cases e2
    exact absurd h5 (h out h3 tc h4)

/-- C58: an entity type the chain has no metadata for gives an error. -/
theorem C58_no_type (R : Resolver) (V : Env) (st : State) (req : ResolveRequest) (withTa : Bool) (sub anchor t : String)
    (h1 : req.sub = some sub) (h2 : req.anchor = some anchor) (ht : req.type = some t)
    (h : ∀ out, (getVerified V st sub anchor).1 = .ok out → ∀ tc ∈ out, Dict.get? tc.metadata t = none) :
    ∃ e, (resolve R V st req withTa).1 = .error e := by
  cases hr : (resolve R V st req withTa).1 with
  | error e => exact ⟨e, rfl⟩
  | ok p =>
    obtain ⟨sub', anchor', out, tc, e1, e2, h3, h4, h5, -, -, -, -, -, h6⟩ := C58_answer _ _ _ _ _ _ hr
    rw [h1] at e1; rw [h2] at e2; cases e1; cases e2
    obtain ⟨v, hv, -⟩ := h6 t ht
    rw [h out h3 tc h4] at hv; cases hv

namespace Ex
def R : Resolver := { entityId := "https://resolver", ownKeys := .arr [.int 7], compact := fun j => .int j.sig }
def rq (anchor : String) (type : Option String := none) : ResolveRequest := { sub := some "https://leaf", anchor := some anchor, type := type }
def answer (md : Val) (chain : List Val) (now : Int := 0) : Dict Val :=
  [("sub", .str "https://leaf"), ("metadata", md), ("trust_chain", .arr chain), ("jwks", .arr [.int 7]), ("iss", .str "https://resolver"),
    ("iat", .int now), ("exp", .int (now + 86400))]
end Ex

example : (resolve Ex.R (Chains.Ex.env (Chains.Ex.W 0)) Chains.Ex.st (Ex.rq "https://ta")).1 =
    .ok (Ex.answer (.obj [("openid_relying_party", .obj [("scopes", .str "openid")])]) [.int 3, .int 2, .int 1]) := by decide +kernel
example : (resolve Ex.R (Chains.Ex.env (Chains.Ex.W 0)) Chains.Ex.st (Ex.rq "https://ta" (some "openid_relying_party"))).1 =
    .ok (Ex.answer (.obj [("openid_relying_party", .obj [("scopes", .str "openid")])]) [.int 3, .int 2, .int 1]) := by decide +kernel
example : (resolve Ex.R (Chains.Ex.env (Chains.Ex.W 0)) Chains.Ex.st (Ex.rq "https://other")).1 = .error .attributeError := by decide +kernel
example : (resolve Ex.R (Chains.Ex.env (Chains.Ex.W 0)) Chains.Ex.st (Ex.rq "https://ta" (some "oauth_client"))).1 = .error .keyError := by
  decide +kernel

/-! ## C89 -/

/-- The state after resolve requests, each in its own environment; the answers do not matter. -/
def afterResolves (R : Resolver) (st : State) (h : List (Env × ResolveRequest)) : State :=
  h.foldl (fun st x => (resolve R x.1 st x.2).2) st

/-- C89 in full: whatever was asked before, an answer is only given for anchors this entity was configured with. -/
def C89_full : Prop :=
  ∀ (R : Resolver) (jar : KeyJar) (h : List (Env × ResolveRequest)) (V : Env) (req : ResolveRequest) (p : Dict Val) (anchor : String),
    req.anchor = some anchor → (resolve R V (afterResolves R { jar := jar } h) req).1 = .ok p → Dict.has jar anchor = true

/-- C89 does not hold: once `leaf` was resolved against `ta`, it can be resolved against its own superior `im`, which is no trust anchor. The
metadata in the answer is not what the policy of `ta` makes of it. -/
theorem C89_violation : ¬ C89_full := by
  intro h
  have h1 : (resolve Ex.R (Chains.Ex.env (Chains.Ex.W 0))
      (afterResolves Ex.R { jar := [("https://ta", [1])] } [(Chains.Ex.env (Chains.Ex.W 0), Ex.rq "https://ta")]) (Ex.rq "https://im")).1 =
      .ok (Ex.answer (.obj [("openid_relying_party", .obj [("scopes", .str "admin")])]) [.int 3, .int 2]) := by decide +kernel
  exact absurd (h Ex.R [("https://ta", [1])] _ _ _ _ "https://im" rfl h1) (by decide)

/-- The documents a resolve request makes this entity collect and verify. -/
def docsFor (V : Env) (st : State) (req : ResolveRequest) : List (List Doc) :=
  match req.sub, req.anchor with
  | some sub, some anchor =>
    match (Collect.collect V.L.toCrypto V.P V.W V.fuel st.coll sub anchor).1 with
    | .ok (f, ec) => docs f ec
    | .error _ => []
  | _, _ => []

/-- The documents collected in the course of a history. -/
def seen (R : Resolver) : State → List (Env × ResolveRequest) → List (List Doc)
  | _, [] => []
  | st, (V, req) :: h => docsFor V st req ++ seen R (resolve R V st req).2 h

theorem verifyChains_jar_prefix {L : Lib} : ∀ (cs : List (List Doc)) (jar : KeyJar), ∃ pre, (∀ c ∈ pre, c ∈ cs) ∧
    (verifyChains L cs jar).2 = runAll L jar pre
  | [], jar => ⟨[], by simp, rfl⟩
  | c :: cs, jar => by
      unfold verifyChains
      generalize hr : verifyChain L jar c = r
      obtain ⟨r1, j1⟩ := r
      cases r1 with
      | error e => exact ⟨[c], by simp, by simp [runAll, hr]⟩
      | ok o =>
        simp only
        obtain ⟨pre, hp, hj⟩ := verifyChains_jar_prefix (L := L) cs j1
        refine ⟨c :: pre, by simpa using fun x hx => Or.inr (hp x hx), ?_⟩
        rw [show runAll L jar (c :: pre) = runAll L j1 pre by simp [runAll, hr], ← hj]
        generalize verifyChains L cs j1 = r2
        obtain ⟨r2, j2⟩ := r2
        cases r2 <;> rfl

/-- The key store after a resolve request: the documents collected were verified, all of them or up to some point. -/
theorem resolve_jar (R : Resolver) (V : Env) (st : State) (req : ResolveRequest) :
    ∃ pre, (∀ c ∈ pre, c ∈ docsFor V st req) ∧ (resolve R V st req).2.jar = runAll V.L st.jar pre := by
  unfold resolve docsFor
  cases hA : req.anchor with
  | none => exact ⟨[], by simp, rfl⟩
  | some anchor =>
    cases hS : req.sub with
    | none => exact ⟨[], by simp, rfl⟩
    | some sub =>
      simp only
      have key : ∃ pre, (∀ c ∈ pre, c ∈ (match (Collect.collect V.L.toCrypto V.P V.W V.fuel st.coll sub anchor).1 with
          | .ok (f, ec) => docs f ec
          | .error _ => [])) ∧ (getVerified V st sub anchor).2.jar = runAll V.L st.jar pre := by
        unfold getVerified
        generalize Collect.collect V.L.toCrypto V.P V.W V.fuel st.coll sub anchor = r
        obtain ⟨r1, coll⟩ := r
        rcases r1 with e | ⟨f, ec⟩
        · exact ⟨[], by simp, rfl⟩
        · simp only
          obtain ⟨pre, hp, hj⟩ := verifyChains_jar_prefix (L := V.L) (docs f ec) st.jar
          refine ⟨pre, hp, ?_⟩
          rw [← hj]
          unfold docs
          generalize verifyChains V.L _ st.jar = r2
          obtain ⟨r2, j2⟩ := r2
          cases r2 with
          | error e => rfl
          | ok tcs => simp only; cases applyPolicies V.E V.K tcs <;> rfl
      obtain ⟨pre, hp, hj⟩ := key
      refine ⟨pre, hp, ?_⟩
      rw [← hj]
      generalize getVerified V st sub anchor = r
      obtain ⟨r1, st1⟩ := r
      cases r1 with
      | error e => rfl
      | ok out =>
        simp only
        generalize out.find? _ = o
        cases chosenMetadata o req.type with
        | error e => rfl
        | ok md =>
          cases o with
          | none => rfl
          | some tc =>
            simp only
            generalize getChain R V.P V.W st1.coll tc.issPath anchor false = g
            obtain ⟨g1, coll⟩ := g
            cases g1 <;> rfl

theorem seen_append (R : Resolver) : ∀ (h : List (Env × ResolveRequest)) (st : State) (V : Env) (req : ResolveRequest),
    seen R st (h ++ [(V, req)]) = seen R st h ++ docsFor V (afterResolves R st h) req
  | [], st, V, req => by simp [seen, afterResolves]
  | x :: h, st, V, req => by
      rw [List.cons_append, seen, seen, seen_append R h, List.append_assoc]; rfl

theorem afterResolves_origin (R : Resolver) (L : Lib) (jar : KeyJar) (H : List (List Doc)) : ∀ (h : List (Env × ResolveRequest)) (st : State),
    (∀ x ∈ h, x.1.L = L) → (∀ c ∈ seen R st h, c ∈ H) →
    (∀ e k, k ∈ st.jar.keysOf e → Known L jar H e k) → (∀ e, Dict.has st.jar e = true → KnownEntity L jar H e) →
    (∀ e k, k ∈ (afterResolves R st h).jar.keysOf e → Known L jar H e k) ∧
      (∀ e, Dict.has (afterResolves R st h).jar e = true → KnownEntity L jar H e)
  | [], st, _, _, h1, h2 => ⟨h1, h2⟩
  | (V, req) :: h, st, hL, hs, h1, h2 => by
      obtain ⟨pre, hp, hj⟩ := resolve_jar R V st req
      have hVL : V.L = L := hL (V, req) (by simp)
      rw [seen] at hs
      have := runAll_origin L jar H pre st.jar (fun c hc => hs c (List.mem_append.2 (Or.inl (hp c hc)))) h1 h2
      rw [← hVL, ← hj, hVL] at this
      exact afterResolves_origin R L jar H h (resolve R V st req).2 (fun x hx => hL x (List.mem_cons_of_mem _ hx))
        (fun c hc => hs c (List.mem_append.2 (Or.inr hc))) this.1 this.2

/-- C89, what holds: the anchor is one this entity was configured with, or it is the subject of a statement, collected for this or an earlier
request, that is signed with a key that goes back to the configured ones. Missing: nobody checks that it is a trust anchor. -/
theorem C89_vouched_partial (R : Resolver) (L : Lib) (jar : KeyJar) (h : List (Env × ResolveRequest)) (V : Env) (req : ResolveRequest)
    (p : Dict Val) (anchor : String) (hL : ∀ x ∈ h ++ [(V, req)], x.1.L = L) (ha : req.anchor = some anchor)
    (hr : (resolve R V (afterResolves R { jar := jar } h) req).1 = .ok p) :
    KnownEntity L jar (seen R { jar := jar } (h ++ [(V, req)])) anchor := by
  obtain ⟨sub, anchor', out, tc, md, ch, h1, h2, h3, h4, -⟩ := resolve_ok hr
  rw [ha] at h2; cases h2
  have hm := List.mem_of_find?_eq_some h4
  have htc : anchor = tc.anchor := by simpa using List.find?_some h4
  have hVL : V.L = L := hL (V, req) (by simp)
  obtain ⟨f, ec, tcs, g1, g2, g3, -⟩ := getVerified_ok h3
  obtain ⟨tc0, hm0, hap⟩ := (applyPolicies_mem g3).1 tc hm
  have same : tc.anchor = tc0.anchor := by
    obtain ⟨_, _, _, _, ⟨_, _, _, rfl⟩ | ⟨_, _, _, rfl⟩⟩ := applyToChain_ok.1 hap <;> rfl
  obtain ⟨pre, c, post, hd, hv⟩ := (verifyChains_mem g2 tc0).1 hm0
  have hdf : docsFor V (afterResolves R { jar := jar } h) req = docs f ec := by
    unfold docsFor; rw [h1, ha]; simp only [g1]
  have hH := seen_append R h { jar := jar } V req
  generalize seen R { jar := jar } (h ++ [(V, req)]) = H at hH ⊢
  obtain ⟨o1, o2⟩ := afterResolves_origin R L jar H h { jar := jar } (fun x hx => hL x (by simp [hx]))
    (fun c hc => by rw [hH]; simp [hc]) (fun _ _ h => .start h) (fun _ h => Or.inl h)
  obtain ⟨q1, q2⟩ := runAll_origin L jar H pre _ (fun c' hc' => by rw [hH, hdf, hd]; simp [hc']) o1 o2
  obtain ⟨j, rest, k, -, h5, h6, -⟩ := C35_known_anchor _ _ _ _ hv
  rw [htc, same, h5]
  rw [hVL] at h6
  exact q2 _ h6

/-- C89, what holds: if only one chain is collected, the anchor asked for was in the key store before. -/
theorem C89_one_chain_partial (R : Resolver) (V : Env) (st : State) (req : ResolveRequest) (p : Dict Val) (anchor : String)
    (ha : req.anchor = some anchor) (hr : (resolve R V st req).1 = .ok p) (hone : (docsFor V st req).length ≤ 1) :
    Dict.has st.jar anchor = true := by
  obtain ⟨sub, anchor', out, tc, md, ch, h1, h2, h3, h4, -⟩ := resolve_ok hr
  rw [ha] at h2; cases h2
  have hm := List.mem_of_find?_eq_some h4
  have htc : anchor = tc.anchor := by simpa using List.find?_some h4
  obtain ⟨f, ec, tcs, g1, g2, g3, -⟩ := getVerified_ok h3
  obtain ⟨tc0, hm0, hap⟩ := (applyPolicies_mem g3).1 tc hm
  have same : tc.anchor = tc0.anchor := by
    obtain ⟨_, _, _, _, ⟨_, _, _, rfl⟩ | ⟨_, _, _, rfl⟩⟩ := applyToChain_ok.1 hap <;> rfl
  obtain ⟨pre, c, post, hd, hv⟩ := (verifyChains_mem g2 tc0).1 hm0
  have hdf : docsFor V st req = docs f ec := by unfold docsFor; rw [h1, ha]; simp only [g1]
  rw [hdf, hd] at hone
  have hpre : pre = [] := by
    cases pre with
    | nil => rfl
    | cons _ _ => simp at hone
  subst hpre
  obtain ⟨j, rest, k, -, h5, h6, -⟩ := C35_known_anchor _ _ _ _ hv
  rw [htc, same, h5]
  exact h6

example : (docsFor (Chains.Ex.env (Chains.Ex.W 0)) Chains.Ex.st (Ex.rq "https://ta")).length = 1 := by decide +kernel
example : (resolve Ex.R (Chains.Ex.env (Chains.Ex.W 0)) Chains.Ex.st (Ex.rq "https://im")).1 = .error .attributeError := by decide +kernel

/-! ## C90 -/

/-- C90 in full: the `trust_chain` in an answer is the chain that was verified, leaf first, signed as it was collected. -/
def C90_full : Prop :=
  ∀ (R : Resolver) (V : Env) (st : State) (sub anchor : String) (type : Option String) (p : Dict Val),
    (resolve R V st { sub := some sub, anchor := some anchor, type := type }).1 = .ok p →
    ∃ out tc js, (getVerified V st sub anchor).1 = .ok out ∧ tc ∈ out ∧ tc.anchor = anchor ∧ tc.chain = List.map some js ∧
      p.get? "trust_chain" = some (.arr (js.reverse.map R.compact))

namespace Ex
/-- The authority `https://im` calls itself `https://im/` in what it signs, and `ta` does so, too. -/
def W6 : Collect.World where
  now := 0
  config := (Chains.Ex.W 0).config
  fetch _ a e :=
    if a = "https://ta" then .ok (some ⟨{ iss := a, sub := "https://im/", exp := some 10000, jwks := some [2] }, 1⟩)
    else .ok (some ⟨{ iss := "https://im/", sub := e, exp := some 10000, jwks := some [3] }, 2⟩)
end Ex

/-- C90 does not hold: when an authority signs with another spelling of its identifier, the statements are looked up under the wrong keys and
`null` is given out in their place. -/
theorem C90_violation : ¬ C90_full := by
  intro h
  have h1 : (resolve Ex.R (Chains.Ex.env Ex.W6) Chains.Ex.st { sub := some "https://leaf", anchor := some "https://ta", type := none }).1 =
      .ok (Ex.answer (.obj [("openid_relying_party", .obj [("scopes", .str "admin")])]) [.int 3, .null, .null]) := by decide +kernel
  obtain ⟨out, tc, js, -, -, -, -, h2⟩ := h _ _ _ _ _ _ _ h1
  have h3 : (Ex.answer (.obj [("openid_relying_party", .obj [("scopes", .str "admin")])]) [.int 3, .null, .null]).get? "trust_chain" =
      some (.arr [.int 3, .null, .null]) := by decide +kernel
  rw [h3] at h2
  simp only [Option.some.injEq, Val.arr.injEq] at h2
  have : (Val.null) ∈ js.reverse.map Ex.R.compact := by rw [← h2]; simp
  obtain ⟨j, -, hj⟩ := List.mem_map.1 this
  cases hj

/-- A federation, as far as `sub` is concerned, in which nothing is about to expire, everyone signs under the identifier it is known by,
identifiers have no exclamation marks, and the configuration of `sub` in the cache, if any, is the one it publishes. -/
structure Orderly (V : Env) (st : State) (sub : String) : Prop where
  plainSub : Collect.Plain sub
  plainHints : ∀ a j hs, Collect.ConfigFrom V.L.toCrypto V.W st.coll a j → j.payload.hints = some hs → ∀ h ∈ hs, Collect.Plain h
  issuer : ∀ a e s c hs, Collect.ConfigFrom V.L.toCrypto V.W st.coll e c → c.payload.hints = some hs → a ∈ hs → Collect.Plain a → Collect.Plain e →
    Collect.StatementFrom V.L.toCrypto V.W st.coll a e s → s.payload.iss = a
  config : ∀ j j', Collect.ConfigFrom V.L.toCrypto V.W st.coll sub j → Collect.ConfigFrom V.L.toCrypto V.W st.coll sub j' → j = j'
  configIss : ∀ j, Collect.ConfigFrom V.L.toCrypto V.W st.coll sub j → j.payload.iss = sub
  configExp : ∀ j, Collect.ConfigFrom V.L.toCrypto V.W st.coll sub j → ∃ x, j.payload.exp = some x ∧ V.W.now < x - V.P.delta
  cached : ∀ k t, st.coll.es.get? k = some (.time t) → V.W.now ≤ t - V.P.delta
  served : ∀ ep a e s t, V.W.fetch ep a e = .ok (some s) → s.payload.exp = some t → V.W.now ≤ t - V.P.delta

theorem plainTree_of_faithful {src cfg gone} {stopAt e : String} {c : Payload} {f : Collect.Forest Jws}
    (h : Collect.Faithful src cfg gone stopAt e c f) (hcfg : ∀ a j hs, cfg a j → j.payload.hints = some hs → ∀ h ∈ hs, Collect.Plain h)
    (he : Collect.Plain e) (hc : ∀ hs, c.hints = some hs → ∀ h ∈ hs, Collect.Plain h) : Collect.PlainTree e f := by
  induction h with
  | noHints _ => exact .mk he (by simp [Collect.Forest.items])
  | stopped _ => exact .mk he (by simp [Collect.Forest.items])
  | @hints e c hs f conf h1 h2 h3 h4 h5 h6 h7 ih =>
    refine .mk he fun a s sub hm => ih a s sub hm ?_ (fun hs' hh => hcfg _ _ _ (h6 a s sub hm) hh)
    have : a ∈ f.keys := List.mem_map.2 ⟨_, hm, rfl⟩
    rw [h3] at this
    exact hc hs h1 a (mem_of_dedup this)

/-- A path in a tree whose statements are cached, each by the authority it is listed under. -/
inductive HeldPath (st : Collect.State) : String → List (String × Jws) → Prop
  | nil {e} : HeldPath st e []
  | cons {e a s p} : st.es.get? (Collect.cacheKey a e) = some (.stmt s) → s.payload.iss = a → HeldPath st a p → HeldPath st e ((a, s) :: p)

theorem heldPath {src cfg gone} {stopAt e : String} {c : Payload} {f : Collect.Forest Jws} {st : Collect.State}
    (h : Collect.Faithful src cfg gone stopAt e c f) (hpl : Collect.PlainTree e f) (hh : Collect.Held st e f)
    (hsrc : ∀ a e s j hs, cfg e j → j.payload.hints = some hs → a ∈ hs → Collect.Plain a → Collect.Plain e → src a e s → s.payload.iss = a) (hc : ∃ j, cfg e j ∧ j.payload = c) :
    ∀ p, Collect.IsPath f p ∨ Collect.IsCut f p → HeldPath st e p := by
  induction h with
  | noHints _ =>
    rintro p (h | h)
    · exact absurd h Collect.not_isPath_nil
    · exact absurd h Collect.isCut_nil
  | stopped _ =>
    rintro p (h | h)
    · exact absurd h Collect.not_isPath_nil
    · exact absurd h Collect.isCut_nil
  | @hints e c hs f conf h1 h2 h3 h4 h5 h6 h7 ih =>
    cases hpl with
    | mk p1 p2 =>
      cases hh with
      | mk q1 q2 =>
        have edge : ∀ a s sub, (a, some (s, sub)) ∈ f.items → s.payload.iss = a :=
          fun a s sub hm => by
            obtain ⟨j, hj, rfl⟩ := hc
            have : a ∈ f.keys := List.mem_map.2 ⟨_, hm, rfl⟩
            rw [h3] at this
            exact hsrc a e s j hs hj h1 (mem_of_dedup this) (p2 a s sub hm).plain p1 (h5 a s sub hm)
        rintro p (h | h)
        · cases h with
          | top hm => exact .cons (q1 _ _ _ hm) (edge _ _ _ hm) .nil
          | step hm hp => exact .cons (q1 _ _ _ hm) (edge _ _ _ hm) (ih _ _ _ hm (p2 _ _ _ hm) (q2 _ _ _ hm) ⟨_, h6 _ _ _ hm, rfl⟩ _ (Or.inl hp))
        · cases h with
          | here _ => exact .nil
          | step hm hp => exact .cons (q1 _ _ _ hm) (edge _ _ _ hm) (ih _ _ _ hm (p2 _ _ _ hm) (q2 _ _ _ hm) ⟨_, h6 _ _ _ hm, rfl⟩ _ (Or.inr hp))

theorem statementsUp_held (R : Resolver) {st : Collect.State} : ∀ {e : String} {p : List (String × Jws)}, HeldPath st e p →
    statementsUp R st (e :: p.map fun x => x.2.payload.iss) = p.map fun x => R.compact x.2
  | e, [], _ => rfl
  | e, (a, s) :: p, h => by
      cases h with
      | cons h1 h2 h3 =>
        simp only [List.map_cons, h2, statementsUp, cachedStatement, h1]
        rw [statementsUp_held R h3]

/-- In an orderly federation the chain looked up in the caches is the one that was verified. -/
theorem getChain_orderly (R : Resolver) (V : Env) (st : State) (sub anchor : String) (ho : Orderly V st sub) (out : List TrustChain)
    (h : (getVerified V st sub anchor).1 = .ok out) (tc : TrustChain) (ht : tc ∈ out) :
    ∃ js, tc.chain = List.map some js ∧
      (getChain R V.P V.W (getVerified V st sub anchor).2.coll tc.issPath anchor false).1 = .ok (js.reverse.map R.compact) := by
  obtain ⟨f, ec, tcs, h1, h2, h3, -, hcoll, -⟩ := getVerified_ok h
  obtain ⟨tc0, hm, ha⟩ := (applyPolicies_mem h3).1 tc ht
  have same : tc.chain = tc0.chain ∧ tc.issPath = tc0.issPath := by
    obtain ⟨_, _, _, _, ⟨_, _, _, rfl⟩ | ⟨_, _, _, rfl⟩⟩ := applyToChain_ok.1 ha <;> exact ⟨rfl, rfl⟩
  obtain ⟨pre, c, post, hd, hv⟩ := (verifyChains_mem h2 tc0).1 hm
  obtain ⟨d1, d2, d4, -⟩ := C42_describes_chain _ _ _ _ hv
  have hcm : c ∈ docs f ec := by rw [hd]; simp
  obtain ⟨c0, hc0, rfl⟩ := List.mem_map.1 hcm
  obtain ⟨p, hp, rfl⟩ := (Collect.tree2chains_mem f c0).1 hc0
  obtain ⟨e1, -, e3⟩ := Collect.C31_tree_faithful_partial _ _ _ _ _ _ _ _ _ h1
  have hst : statements ((Collect.chainOf p).map some ++ [some ec]) = Collect.chainOf p ++ [ec] := by
    simp [statements, List.filterMap_map, List.filterMap_append]
  obtain ⟨x, hx, hfresh⟩ := ho.configExp ec e1
  obtain ⟨hheld, hconf⟩ := Collect.collect_held (C := V.L.toCrypto) (P := V.P) (W := V.W) (leaf := sub) (ec := ec) V.fuel st.coll anchor f h1
    (fun y hy => by rw [hx] at hy; cases hy; exact hfresh) (fun j hj hs => ho.config j ec (Or.inr ⟨hj, hs⟩) e1)
    (fun ep a e s t hs htm => by have := ho.served ep a e s t hs htm; omega)
    (fun k t hk => by have := ho.cached k t hk; omega)
  have hpt : Collect.PlainTree sub f := plainTree_of_faithful e3 (fun a j hs hc hh => ho.plainHints a j hs hc.1 hh) ho.plainSub
    (fun hs hh => ho.plainHints sub ec hs e1 hh)
  have hpath := heldPath e3 hpt (hheld hpt) (fun a e s j hs hj hh ha pa pe hs' => ho.issuer a e s j hs hj.1 hh ha pa pe (hs' pa pe)) ⟨ec, ⟨e1, x, hx, hfresh⟩, rfl⟩ p hp
  refine ⟨Collect.chainOf p ++ [ec], by rw [same.1, d1]; simp, ?_⟩
  have hiss : tc.issPath = sub :: p.map fun x => x.2.payload.iss := by
    rw [same.2, d4, hst, Collect.chainOf, List.map_append, List.reverse_append, List.map_reverse, List.reverse_reverse]
    simp [ho.configIss ec e1]
  rw [hiss, hcoll]
  simp only [getChain, cachedConfig]
  have hsubscript : Collect.subscript V.P.delta V.W.now
      (Collect.collect V.L.toCrypto V.P V.W V.fuel st.coll sub anchor).2.config sub =
      (.ok (some ⟨ec⟩), (Collect.collect V.L.toCrypto V.P V.W V.fuel st.coll sub anchor).2.config) := by
    unfold Collect.subscript
    rw [hconf]
    simp [Collect.CacheVal.dictExp, hx, hfresh]
  rw [hsubscript]
  simp only [Bool.false_eq_true, if_false]
  rw [statementsUp_held R hpath]
  simp [Collect.chainOf, List.reverse_append]

/-- The example federation is orderly. -/
theorem Ex.orderly : Orderly (Chains.Ex.env (Chains.Ex.W 0)) Chains.Ex.st "https://leaf" := by
  have hc : ∀ a j, Collect.ConfigFrom Chains.Ex.L.toCrypto (Chains.Ex.W 0) ({} : Collect.State) a j →
      (a = "https://ta" ∧ j = Chains.Ex.conf "https://ta" none (Chains.Ex.fe true)) ∨
      (a = "https://im" ∧ j = Chains.Ex.conf "https://im" (some ["https://ta"]) (Chains.Ex.fe true)) ∨
      (a = "https://leaf" ∧ j = Chains.Ex.conf "https://leaf" (some ["https://im"]) (Chains.Ex.rp (.str "admin"))) := by
    rintro a j (h | ⟨h, -⟩)
    · cases h
    · simp only [Chains.Ex.W] at h
      split at h
      · cases h; exact Or.inl ⟨rfl, rfl⟩
      · cases h; exact Or.inr (Or.inl ⟨rfl, rfl⟩)
      · cases h; exact Or.inr (Or.inr ⟨rfl, rfl⟩)
      · cases h
  have hl : ∀ j, Collect.ConfigFrom Chains.Ex.L.toCrypto (Chains.Ex.W 0) ({} : Collect.State) "https://leaf" j →
      j = Chains.Ex.conf "https://leaf" (some ["https://im"]) (Chains.Ex.rp (.str "admin")) := by
    intro j h
    rcases hc _ _ h with ⟨h, -⟩ | ⟨h, -⟩ | ⟨-, h⟩
    · exact absurd h (by decide)
    · exact absurd h (by decide)
    · exact h
  refine ⟨by decide, ?_, ?_, fun j j' h h' => (hl j h).trans (hl j' h').symm, fun j h => ?_, fun j h => ⟨10000, ?_, by decide⟩, ?_, ?_⟩
  · intro a j hs h hh x hx
    rcases hc _ _ h with ⟨-, rfl⟩ | ⟨-, rfl⟩ | ⟨-, rfl⟩
    · cases hh
    · cases hh; simp only [List.mem_singleton] at hx; subst hx; decide
    · cases hh; simp only [List.mem_singleton] at hx; subst hx; decide
  · rintro a e s c hs - - - - - (h | ⟨_, _, _, -, -, -, h⟩)
    · cases h
    · cases h; rfl
  · rw [hl j h]; rfl
  · rw [hl j h]; rfl
  · intro k t h; cases h
  · intro ep a e s t h ht; cases h; cases ht; decide

/-- C90 in orderly federations. Missing: all others (statements that are dropped or not found when the chain is put together again). -/
theorem C90_orderly_partial (R : Resolver) (V : Env) (st : State) (sub anchor : String) (type : Option String) (p : Dict Val)
    (ho : Orderly V st sub) (h : (resolve R V st { sub := some sub, anchor := some anchor, type := type }).1 = .ok p) :
    ∃ out tc js, (getVerified V st sub anchor).1 = .ok out ∧ tc ∈ out ∧ tc.anchor = anchor ∧ tc.chain = List.map some js ∧
      p.get? "trust_chain" = some (.arr (js.reverse.map R.compact)) := by
  obtain ⟨sub', anchor', out, tc, md, ch, e1, e2, h3, h4, h5, h6, h7⟩ := resolve_ok h
  cases e1; cases e2
  have hm := List.mem_of_find?_eq_some h4
  have hta : anchor = tc.anchor := by simpa using List.find?_some h4
  obtain ⟨js, hj, hg⟩ := getChain_orderly R V st sub anchor ho out h3 tc hm
  rw [hg] at h6
  cases h6
  obtain ⟨-, -, -, -, -, -, -, -, -, -, -, c12⟩ := C59_payload _ _ _ _ _ _ _ h7
  refine ⟨out, tc, js, h3, hm, hta.symm, hj, ?_⟩
  rw [c12 "trust_chain" (by decide) (by decide)]
  rfl

/-- The chain with the anchor's configuration is the chain without, and the configuration at the end. -/
theorem getChain_withTa {R : Resolver} {P : Collect.Params} {W : Collect.World} {st : Collect.State} {path : List String} {anchor : String} {ch : List Val}
    (h : (getChain R P W st path anchor true).1 = .ok ch) :
    ∃ ch0 c, (getChain R P W st path anchor false).1 = .ok ch0 ∧ st.config.get? anchor = some c ∧ ch = ch0 ++ [R.compact c.jws] := by
  unfold getChain at h ⊢
  cases path with
  | nil => cases h
  | cons leaf rest =>
    simp only at h ⊢
    have hst : ∀ q c, (cachedConfig R P W st leaf).2.config.get? q = some c → st.config.get? q = some c := by
      intro q c
      unfold cachedConfig
      have this : ∀ q c, Dict.get? (Collect.subscript P.delta W.now st.config leaf).2 q = some c → st.config.get? q = some c := by
        intro q c hq
        rcases Collect.subscript_cases P.delta W.now st.config leaf with ⟨_, _, _, e⟩ | ⟨_, _, _, _, _, e⟩ | ⟨_, _, _, _, _, e⟩ | ⟨_, _, _, e⟩ | ⟨_, e⟩ <;> rw [e] at hq
        · exact hq
        · exact hq
        · simp only [Collect.drop, Dict.get?_filter_ne] at hq
          split at hq
          · cases hq
          · exact hq
        · exact hq
        · exact hq
      generalize Collect.subscript P.delta W.now st.config leaf = r at this ⊢
      obtain ⟨r1, db⟩ := r
      cases r1 with
      | error e => exact this q c
      | ok o => cases o <;> exact this q c
    have hcc : ∀ st' v st'', cachedConfig R P W st' anchor = (.ok v, st'') → ∃ c, st'.config.get? anchor = some c ∧ v = R.compact c.jws := by
      intro st' v st'' h0
      unfold cachedConfig Collect.subscript at h0
      cases hg : st'.config.get? anchor with
      | none => rw [hg] at h0; cases h0
      | some c =>
        rw [hg] at h0
        simp only at h0
        refine ⟨c, rfl, ?_⟩
        split at h0
        · cases h0
        · cases h0
        · rename_i x db hx
          have : x = c := by
            split at hx
            · cases hx; rfl
            · cases hx
            · split at hx
              · cases hx; rfl
              · cases hx
          subst this
          cases h0; rfl
    generalize cachedConfig R P W st leaf = r at h hst ⊢
    obtain ⟨r1, st1⟩ := r
    cases r1 with
    | error e => cases h
    | ok ec =>
      simp only at h hst ⊢
      rw [if_pos trivial] at h
      rw [if_neg (by decide)]
      cases h2 : cachedConfig R P W st1 anchor with
      | mk x st2 =>
        rw [h2] at h
        cases x with
        | error e => cases h
        | ok ta =>
          simp only [Except.ok.injEq] at h
          obtain ⟨c, h3, h4⟩ := hcc st1 ta st2 h2
          refine ⟨_, c, rfl, hst _ _ h3, ?_⟩
          rw [← h, h4]

/-- C90 where the anchor's configuration is asked for as well: it stands at the end of the verified chain, and it is the one the anchor publishes, or the one kept of it. Missing: as above. -/
theorem C90_with_anchor_partial (R : Resolver) (V : Env) (st : State) (sub anchor : String) (type : Option String) (p : Dict Val)
    (ho : Orderly V st sub) (h : (resolve R V st { sub := some sub, anchor := some anchor, type := type } true).1 = .ok p) :
    ∃ out tc js ta, (getVerified V st sub anchor).1 = .ok out ∧ tc ∈ out ∧ tc.anchor = anchor ∧ tc.chain = List.map some js ∧
      Collect.ConfigFrom V.L.toCrypto V.W st.coll anchor ta ∧
      p.get? "trust_chain" = some (.arr (js.reverse.map R.compact ++ [R.compact ta])) := by
  obtain ⟨sub', anchor', out, tc, md, ch, e1, e2, h3, h4, h5, h6, h7⟩ := resolve_ok h
  cases e1; cases e2
  have hm := List.mem_of_find?_eq_some h4
  have hta : anchor = tc.anchor := by simpa using List.find?_some h4
  obtain ⟨js, hj, hg⟩ := getChain_orderly R V st sub anchor ho out h3 tc hm
  obtain ⟨ch0, c, h8, h9, rfl⟩ := getChain_withTa h6
  rw [hg] at h8
  cases h8
  obtain ⟨f, ec, tcs, -, -, -, -, hcoll, -⟩ := getVerified_ok h3
  rw [hcoll] at h9
  have hI := (Collect.collect_faithful (C := V.L.toCrypto) (P := V.P) (W := V.W) (fuel := V.fuel) (st := st.coll) (entity := sub) (stopAt := anchor)).1
  obtain ⟨-, -, -, -, -, -, -, -, -, -, -, c12⟩ := C59_payload _ _ _ _ _ _ _ h7
  refine ⟨out, tc, js, c.jws, h3, hm, hta.symm, hj, hI.config _ _ h9, ?_⟩
  rw [c12 "trust_chain" (by decide) (by decide)]
  rfl

example : ((resolve Ex.R (Chains.Ex.env (Chains.Ex.W 0)) Chains.Ex.st { sub := some "https://leaf", anchor := some "https://ta" } true).1.toOption.bind
    fun p => p.get? "trust_chain") = some (.arr [.int 3, .int 2, .int 1, .int 1]) := by decide +kernel

/-! ## C91 -/

/-- C91 in full: whenever the subject has a verified chain to the anchor asked for, a resolve request is answered. -/
def C91_full : Prop :=
  ∀ (R : Resolver) (V : Env) (st : State) (sub anchor : String) (out : List TrustChain) (tc : TrustChain),
    (getVerified V st sub anchor).1 = .ok out → tc ∈ out → tc.anchor = anchor →
    ∃ p, (resolve R V st { sub := some sub, anchor := some anchor }).1 = .ok p

namespace Ex
/-- The configuration of `leaf` is valid for another 200 seconds. -/
def W7 : Collect.World where
  now := 0
  config
    | "https://leaf" => .ok (some (Chains.Ex.conf "https://leaf" (some ["https://im"]) (Chains.Ex.rp (.str "admin")) 200))
    | e => (Chains.Ex.W 0).config e
  fetch := (Chains.Ex.W 0).fetch
end Ex

/-- C91 does not hold: the chain is verified, but the configuration of the subject, valid for another 200 seconds, is thrown out of the cache
when the answer is put together: TypeError. -/
theorem C91_violation : ¬ C91_full := by
  intro h
  have h1 : ((getVerified (Chains.Ex.env Ex.W7) Chains.Ex.st "https://leaf" "https://ta").1.toOption.map fun out => out.map (·.anchor)) =
      some ["https://ta"] := by decide +kernel
  have h2 : (resolve Ex.R (Chains.Ex.env Ex.W7) Chains.Ex.st { sub := some "https://leaf", anchor := some "https://ta" }).1 = .error .typeError := by
    decide +kernel
  cases ho : (getVerified (Chains.Ex.env Ex.W7) Chains.Ex.st "https://leaf" "https://ta").1 with
  | error e => rw [ho] at h1; simp [Except.toOption] at h1
  | ok out =>
    rw [ho] at h1
    simp only [Except.toOption, Option.map_some, Option.some.injEq] at h1
    obtain ⟨tc, rest, rfl, h3, -⟩ := List.map_eq_cons_iff.1 h1
    obtain ⟨p, hp⟩ := h Ex.R _ _ "https://leaf" "https://ta" _ tc ho (by simp) h3
    rw [h2] at hp
    cases hp

/-- C91 in orderly federations. Missing: all others. -/
theorem C91_orderly_partial (R : Resolver) (V : Env) (st : State) (sub anchor : String) (out : List TrustChain) (tc : TrustChain)
    (ho : Orderly V st sub) (h : (getVerified V st sub anchor).1 = .ok out) (ht : tc ∈ out) (ha : tc.anchor = anchor) :
    ∃ p, (resolve R V st { sub := some sub, anchor := some anchor }).1 = .ok p := by
  have hfind : ∃ tc', out.find? (fun tc => decide (anchor = tc.anchor)) = some tc' := by
    cases hf : out.find? (fun tc => decide (anchor = tc.anchor)) with
    | some tc' => exact ⟨tc', rfl⟩
    | none =>
      rw [List.find?_eq_none] at hf
      exact absurd (by simp [ha]) (hf tc ht)
  obtain ⟨tc', hf⟩ := hfind
  obtain ⟨js, -, hg⟩ := getChain_orderly R V st sub anchor ho out h tc' (List.mem_of_find?_eq_some hf)
  unfold resolve
  simp only
  generalize getVerified V st sub anchor = r at h hg
  obtain ⟨r1, st1⟩ := r
  simp only at h hg
  subst h
  simp only [hf, chosenMetadata]
  generalize getChain R V.P V.W st1.coll tc'.issPath anchor false = g at hg
  obtain ⟨g1, coll⟩ := g
  simp only at hg
  subst hg
  exact ⟨_, rfl⟩

end Fed.Server
