import Verif.Setup.Tools
import Verif.Client.Resolving
import Verif.Server.Standing
import Verif.Web.Service
/-
Model of the scripts /repo/script/resolve_entity.py, which asks a resolver about an entity, and /repo/script/get_trust_mark.py, which asks an issuer for a trust mark. Property C237: in a federation whose members
run this software they get what they ask for.
-/
namespace Fed.Setup.Asking
open Fed Fed.Verify Fed.Chains

/-! ### The scripts -/

/-- What the script sends (resolve_entity.py 40-49): the endpoint is looked up, and the question is put by the `resolve` service. A trust anchor, or an entity, that is not given on the command line is the empty
text here: None and the empty text are both left out of a message (idpyoidc). Simplification: an endpoint that is no text is not used. -/
def askResolver (V : Env) (ask : String → Except PyErr (Dict Val)) (st : State) (resolver sub anchor : String) : Except PyErr Client.Requests.Get :=
  match (entityEndpoint V ask st resolver "federation_entity" "federation_resolve_endpoint").1 with
  | .error x => .error x
  | .ok (.str ep) => Client.Resolving.resolveRequest (some [("sub", sub), ("anchor", anchor)]) ep
  | .ok _ => .error .unsupported

/-- `TrustMark.construct_request` (/repo/src/fedservice/entity/client/trust_mark.py 39-57), sent by `GET`: the request is not verified before it is sent. Simplification: without an endpoint nothing is sent. -/
def markRequest (args : Dict String) (endpoint : String) : Except PyErr Client.Requests.Get :=
  if args.has "trust_mark_id" then
    if endpoint = "" then .error .unsupported else .ok ⟨endpoint, Client.Resolving.kept args⟩
  else .error .missingAttribute

/-- What the script sends (get_trust_mark.py 42-52). Simplification: an endpoint that is no text is not used. -/
def askMark (V : Env) (ask : String → Except PyErr (Dict Val)) (st : State) (issuer id sub : String) : Except PyErr Client.Requests.Get :=
  match (entityEndpoint V ask st issuer "federation_entity" "federation_trust_mark_endpoint").1 with
  | .error x => .error x
  | .ok (.str ep) => markRequest [("trust_mark_id", id), ("sub", sub)] ep
  | .ok _ => .error .unsupported

/-- What `parse_request` of idpyoidc is to make of the query of a request that is complete: a message with the same texts. -/
def Reads {σ : Type} (parse : σ → Dict String ⊕ String → Except PyErr (Web.Parsed (Dict Val))) : Prop :=
  ∀ st q, parse st (.inl q) = .ok (.request (q.map fun p => (p.1, .str p.2)))

/-! ### C237 -/

/-- C237: without an entity, or without a trust anchor, no question is put to a resolver. -/
theorem C237_incomplete (V : Env) (ask : String → Except PyErr (Dict Val)) (st : State) (resolver sub anchor : String) (h : sub = "" ∨ anchor = "") :
    ∃ e, askResolver V ask st resolver sub anchor = .error e := by
  unfold askResolver
  split
  · exact ⟨_, rfl⟩
  · refine Client.Resolving.C183_incomplete _ _ (by simp [Dict.keys]) (Or.inr ?_)
    rcases h with rfl | rfl
    · left; rfl
    · right; rfl
  · exact ⟨_, rfl⟩

/-- C237: in a federation whose members run this software and register only keys, resolve_entity.py asks the resolve endpoint the resolver states; the resolver, whatever it collected before and whenever it is asked while the
documents last, answers; and the answer is the resolver's, about the member asked for, with at least the metadata the member publishes. The trust anchor asked for names no authority and is at the top of a way up
from the member; the resolver trusts it. -/
theorem C237_resolver (V V' : Env) (J : Jose) (member : String → Option Member) (host : Val → Option String) (issued now now' : Int) (st st' : State) (h h' : List Collect.FRun) (rank : String → Nat)
    (resolver sub anchor ep : String) (mr ms ma : Member) (R : Server.Resolver) (r : Runs V J member host issued now st h rank) (r' : Runs V' J member host issued now' st' h' rank)
    (hr : member resolver = some mr) (hmr : mr.authority.metadata.truthy = true) (hep : Chains.States mr "federation_entity" "federation_resolve_endpoint" (.str ep)) (hne : ep ≠ "")
    (hlife : Server.LastADay J member host issued) (hs : member sub = some ms) (hms : ms.authority.metadata.truthy = true) (hhints : strs ms.authority.hints ≠ [])
    (ha : member anchor = some ma) (htop : strs ma.authority.hints = []) (hup : ∃ p, Up (directory J member issued) sub p ∧ p.getLast? = some anchor) :
    ∃ q p, askResolver V (publishedMetadata member) st resolver sub anchor = .ok q ∧ q.target = ep ∧ (Server.resolve R V' st' (Client.Resolving.asked q.query)).1 = .ok p ∧
      p.get? "iss" = some (.str R.entityId) ∧ p.get? "sub" = some (.str sub) ∧
      ∀ t md, (objs ms.authority.metadata).get? t = some md → ∃ all got, p.get? "metadata" = some (.obj all) ∧ Dict.get? all t = some (.obj got) ∧ ∀ c v, md.get? c = some v → Dict.get? got c = some v := by
  have hstop : Stop member anchor := fun m hm => by rw [ha] at hm; cases hm; exact htop
  have run : Running V' J member host issued now' st' h' anchor rank := ⟨r'.kept, r'.world, r'.collected, r'.ordered, r'.past, r'.plain, r'.now, hstop⟩
  have hsub0 : sub ≠ "" := (r.kept.id sub ms hs).2.1
  have hanc0 : anchor ≠ "" := (r.kept.id anchor ma ha).2.1
  obtain ⟨out, o1, -, o2, o3⟩ := C133_keys_suffice V' J member host issued now' st' h' anchor sub ms rank r'.kept r'.world r'.collected r'.ordered r'.past r'.plain r'.now hstop hs (r'.fuel sub) hhints hms
    r'.urls r'.only
  obtain ⟨way, w1, w2⟩ := hup
  obtain ⟨tc, t1, -, t2⟩ := o2 way w1
  rw [w2] at t2
  cases t2
  obtain ⟨q, q1, q2, q3⟩ := Client.Resolving.C183_answer R V' st' false [("sub", sub), ("anchor", tc.anchor)] ep sub tc.anchor (by simp [Dict.keys]) hne (by simp [Dict.get?_cons]) (by simp [Dict.get?_cons]) hsub0 hanc0
  have hq : Client.Resolving.asked q.query = { sub := some sub, anchor := some tc.anchor } := by
    unfold Client.Resolving.resolveRequest at q1
    rw [if_neg hne] at q1
    simp only at q1
    split at q1
    · cases q1
      simp [Client.Resolving.asked, Client.Resolving.kept, hsub0, hanc0, Dict.get?_cons]
    · cases q1
  obtain ⟨p, p1⟩ := Server.C91_orderly_partial R V' st' sub tc.anchor out tc (Server.orderly_of_running run hlife hs) o1 t1 rfl
  obtain ⟨i1, i2, out', tc', e1, e2, -, -, e5, -⟩ := q3 p (by rw [hq]; exact p1)
  rw [o1] at e1
  cases e1
  refine ⟨q, p, ?_, q2, by rw [hq]; exact p1, i1, i2, ?_⟩
  · unfold askResolver
    rw [C168_endpoint V J member host issued now st h rank resolver mr _ _ _ r hr hmr hep]
    exact q1
  · intro t md ht
    obtain ⟨got, g1, g2⟩ := (o3 tc' e2).2.2 t md ht
    exact ⟨tc'.metadata, got, e5 rfl (fun hn => by rw [hn] at g1; cases g1), g1, g2⟩

theorem read_get {q : Dict String} {k : String} : Web.strArg (q.map fun p => (p.1, Val.str p.2)) k = q.get? k := by
  have : Dict.get? (q.map fun p => (p.1, Val.str p.2)) k = (q.get? k).map Val.str := by
    induction q with
    | nil => rfl
    | cons p q ih =>
      rw [List.map_cons, Dict.get?_cons, Dict.get?_cons]
      by_cases hp : p.1 = k
      · rw [if_pos hp, if_pos hp]; rfl
      · rw [if_neg hp, if_neg hp]; exact ih
  unfold Web.strArg
  rw [this]
  cases q.get? k <;> rfl

/-- C237: in a federation whose members run this software get_trust_mark.py asks the trust mark endpoint the issuer states, and an issuer that is set up to issue the mark and keeps its own files gives that mark, for that
subject; and when get_trust_mark_status.py asks the issuer afterwards, then it confirms the mark, for as long as its specification lets it be valid, whatever it issued before. -/
theorem C237_mark (V : Env) (J : Jose) (member : String → Option Member) (host : Val → Option String) (issued now : Int) (st : State) (h : List Collect.FRun) (rank : String → Nat)
    (issuer : String) (m : Member) (text : Val → String) (ht : Client.Requests.Faithful text) (ep eps id sub : String) (r : Runs V J member host issued now st h rank) (he : member issuer = some m)
    (hmd : m.authority.metadata.truthy = true) (hep : Chains.States m "federation_entity" "federation_trust_mark_endpoint" (.str ep)) (hne : ep ≠ "")
    (heps : Chains.States m "federation_entity" "federation_trust_mark_status_endpoint" (.str eps)) (hnes : eps ≠ "") (h0 : id ≠ "") (hs0 : sub ≠ "")
    (sign : TrustMarks.Info → String) (parse parse' render render') (hp : Reads parse) (hp' : Reads parse') (hR : Web.Renders render') (unpack : String → Except PyErr TrustMarks.Info)
    (spec : Dict TrustMarks.Spec) (config : Dict String) (rs : List (Int × String × String)) (t t' : Int) (s : TrustMarks.Spec)
    (hs : spec.get? id = some s) (ho : TrustMarks.OwnFiles config) (hid : id ∈ config.keys) (hto : (rs ++ [(t, id, sub)]).Pairwise fun a b => a.1 ≤ b.1) (hv : s.Valid t t') :
    ∃ q q' mark is' body hs, askMark V (publishedMetadata member) st issuer id sub = .ok q ∧ q.target = ep ∧
      Tools.askStatus V (publishedMetadata member) text st issuer id sub = .ok q' ∧ q'.target = eps ∧
      Web.service (Web.markEndpoint sign t parse render) (TrustMarks.createAll ⟨spec, .file ⟨config, []⟩⟩ rs).2 (.get q.query) = (.reply 200 (.text (sign mark)), is') ∧ mark.id = id ∧ mark.sub = sub ∧
      Web.service (Web.statusEndpoint t' unpack parse' render') is' (.get q'.query) = (.reply 200 body hs, is') := by
  have g1 : (Client.Resolving.kept [("trust_mark_id", id), ("sub", sub)]).get? "trust_mark_id" = some id := by
    rw [Client.Resolving.kept_get _ (by simp [Dict.keys])]; simp [Dict.get?_cons, h0]
  have g2 : (Client.Resolving.kept [("trust_mark_id", id), ("sub", sub)]).get? "sub" = some sub := by
    rw [Client.Resolving.kept_get _ (by simp [Dict.keys])]; simp [Dict.get?_cons, hs0]
  have a1 : askMark V (publishedMetadata member) st issuer id sub = .ok ⟨ep, Client.Resolving.kept [("trust_mark_id", id), ("sub", sub)]⟩ := by
    unfold askMark
    rw [C168_endpoint V J member host issued now st h rank issuer m _ _ _ r he hmd hep]
    simp only [markRequest]
    rw [if_pos (by simp [Dict.has, Dict.get?_cons]), if_neg hne]
  have a2 : Tools.askStatus V (publishedMetadata member) text st issuer id sub =
      .ok ⟨eps, Client.Requests.pick text ["sub", "trust_mark_id", "iat"] [("trust_mark_id", .str id), ("sub", .str sub)]⟩ := by
    unfold Tools.askStatus
    rw [C168_endpoint V J member host issued now st h rank issuer m _ _ _ r he hmd heps]
    simp [Client.Requests.statusRequest, Client.Requests.endpointOf, hnes, Dict.get?_cons]
  obtain ⟨mark, is', body, hs', e1, e2, e3, e4⟩ := Web.C189_confirmed sign parse parse' render render' unpack hR spec config rs t t' (.get (Client.Resolving.kept [("trust_mark_id", id), ("sub", sub)]))
    (.get (Client.Requests.pick text ["sub", "trust_mark_id", "iat"] [("trust_mark_id", .str id), ("sub", .str sub)])) _ _ id sub s hs h0 ho hid hto hv (hp _ _) (by rw [read_get]; exact g1)
    (by rw [read_get]; exact g2) (fun is => hp' is _) (by rw [read_get]; simp [Client.Requests.pick_get, Dict.get?_cons, ht id]) (by rw [read_get]; simp [Client.Requests.pick_get, Dict.get?_cons, ht sub])
    (by rw [read_get]; simp [Client.Requests.pick_get])
  exact ⟨_, _, mark, is', body, hs', a1, rfl, a2, rfl, e1, e2, e3, e4⟩

/-! ### A case -/

namespace Ex237
open Chains.Ex

/-- `im` answers questions, and issues trust marks. -/
def imSays : Dict Val := imEntity ++ [("federation_resolve_endpoint", .str "https://im/resolve"), ("federation_trust_mark_endpoint", .str "https://im/mark")]
def mIm237 : Member := { mIm with authority := { mIm.authority with metadata := .obj [("federation_entity", .obj imSays)] } }
def member237 : String → Option Member
  | "https://ta" => some (mTa [])
  | "https://im" => some mIm237
  | "https://leaf" => some mLeaf
  | _ => none
def env237 (now : Int) : Env := env ((world J member237 host133 0).at now)

theorem member237_some {e : String} {m : Member} (h : member237 e = some m) :
    (e = "https://ta" ∧ m = mTa []) ∨ (e = "https://im" ∧ m = mIm237) ∨ (e = "https://leaf" ∧ m = mLeaf) := by
  unfold member237 at h
  split at h <;> simp_all

theorem kept237 : WellKept J L member237 host133 [("https://ta", [1])] rank109 where
  id e m h := by
    rcases member237_some h with ⟨rfl, rfl⟩ | ⟨rfl, rfl⟩ | ⟨rfl, rfl⟩ <;> exact ⟨rfl, by decide, by decide⟩
  signs e m d h := by
    rcases member237_some h with ⟨rfl, rfl⟩ | ⟨rfl, rfl⟩ | ⟨rfl, rfl⟩
    · exact ⟨1, List.mem_singleton.2 rfl, rfl, rfl⟩
    · exact ⟨2, by decide, rfl, rfl⟩
    · exact ⟨3, by decide, rfl, rfl⟩
  time j x t hx ht := by
    simp only [L, notExpired, hx, decide_eq_true_eq]
    omega
  hints e m h := by
    rcases member237_some h with ⟨rfl, rfl⟩ | ⟨rfl, rfl⟩ | ⟨rfl, rfl⟩
    · exact .inr ⟨[], rfl⟩
    · exact .inr ⟨["https://ta"], rfl⟩
    · exact .inr ⟨["https://im"], rfl⟩
  superior e m a h ha := by
    rcases member237_some h with ⟨rfl, rfl⟩ | ⟨rfl, rfl⟩ | ⟨rfl, rfl⟩
    · cases ha
    · have : a = "https://ta" := by simpa [mIm237, mIm, strs] using ha
      subst this
      refine ⟨mTa [], [("jwks", .int 2)], [("federation_fetch_endpoint", .str "https://ta/fetch")], .str "https://ta/fetch", rfl, by decide, ⟨rfl, ⟨.int 2, rfl, rfl⟩, ?_, ?_, ?_⟩, rfl, rfl, rfl, rfl⟩
      · intro v hv; cases hv
      · decide
      · rfl
    · have : a = "https://im" := by simpa [mLeaf, strs] using ha
      subst this
      refine ⟨mIm237, [("jwks", .int 3), ("entity_types", .arr [.str "openid_relying_party"])], imSays, .str "https://im/fetch", rfl, by decide,
        ⟨rfl, ⟨.int 3, rfl, rfl⟩, ?_, ?_, rfl⟩, rfl, rfl, rfl, rfl⟩
      · intro v hv
        cases hv
        exact ⟨["openid_relying_party"], rfl⟩
      · decide
  requests e m h r hr := by
    rcases member237_some h with ⟨rfl, rfl⟩ | ⟨rfl, rfl⟩ | ⟨rfl, rfl⟩
    · cases hr
    · simp only [mIm237, mIm, List.mem_cons, List.not_mem_nil, or_false] at hr
      rcases hr with rfl | rfl
      · exact .inl rfl
      · exact .inr (.inr (.inl rfl))
    · cases hr
  anchors e m h hh := by
    rcases member237_some h with ⟨rfl, rfl⟩ | ⟨rfl, rfl⟩ | ⟨rfl, rfl⟩
    · refine ⟨by decide, fun k hk => ?_⟩
      have hk : k ∈ [1] := hk
      simpa [KeyJar.keysOf, Dict.get?] using hk
    · cases hh
    · cases hh

theorem runs237 (now : Int) (hn : now < 80000) : Runs (env237 now) J member237 host133 0 now st [] rank109 where
  kept := kept237
  world := rfl
  collected := rfl
  ordered := by simp
  past := by simp
  plain := by simp
  now := by simp [env237, env]; omega
  fuel e := by
    show rank109 e < 10
    unfold rank109
    split <;> decide
  urls e m h := by
    rcases member237_some h with ⟨rfl, rfl⟩ | ⟨rfl, rfl⟩ | ⟨rfl, rfl⟩ <;> exact Constraints.isUrl_iff.2 (Option.isSome_iff_exists.1 (by decide +kernel))
  only e m a ma reg h ha hma hreg := by
    rcases member237_some h with ⟨rfl, rfl⟩ | ⟨rfl, rfl⟩ | ⟨rfl, rfl⟩
    · cases ha
    · have : a = "https://ta" := by simpa [mIm237, mIm, strs] using ha
      subst this
      cases hma
      have : reg = [("jwks", .int 2)] := (Option.some.inj hreg).symm
      subst this
      exact ⟨by decide, rfl, fun ts t hts => by cases hts⟩
    · have : a = "https://im" := by simpa [mLeaf, strs] using ha
      subst this
      cases hma
      have : reg = [("jwks", .int 3), ("entity_types", .arr [.str "openid_relying_party"])] := (Option.some.inj hreg).symm
      subst this
      exact ⟨by decide, rfl, fun ts t _ _ => rfl⟩
  anchors e m h hh := by
    rcases member237_some h with ⟨rfl, rfl⟩ | ⟨rfl, rfl⟩ | ⟨rfl, rfl⟩
    · simp [env237, env]
    · cases hh
    · cases hh

theorem lasts237 : Server.LastADay J member237 host133 0 := Server.lastADay fun e m h => by
  intro sub
  rcases member237_some h with ⟨rfl, rfl⟩ | ⟨rfl, rfl⟩ | ⟨rfl, rfl⟩
  · refine ⟨fun reg hr => ?_, rfl⟩
    have hr : (if "https://im" = sub then some [("jwks", Val.int 2)] else none) = some reg := by
      simpa [mTa, Dict.get?_cons, Dict.get?_nil] using hr
    split at hr <;> cases hr
    rfl
  · refine ⟨fun reg hr => ?_, rfl⟩
    have hr : (if "https://leaf" = sub then some [("jwks", Val.int 3), ("entity_types", .arr [.str "openid_relying_party"])] else none) = some reg := by
      simpa [mIm237, mIm, imRegistry, Dict.get?_cons, Dict.get?_nil] using hr
    split at hr <;> cases hr
    rfl
  · exact ⟨fun reg hr => (by simp [mLeaf] at hr), rfl⟩

theorem up237 : Up (directory J member237 0) "https://leaf" ["https://im", "https://ta"] :=
  .step (hs := ["https://im"]) (kept237.read (e := "https://leaf") (m := mLeaf) rfl) (by simp)
    (.top (hs := ["https://ta"]) (kept237.read (e := "https://im") (m := mIm237) rfl) (by simp) (kept237.read (e := "https://ta") (m := mTa []) rfl))

/-- The texts of the query. -/
def reads {σ : Type} (_ : σ) : Dict String ⊕ String → Except PyErr (Web.Parsed (Dict Val))
  | .inl q => .ok (.request (q.map fun p => (p.1, .str p.2)))
  | .inr _ => .error .valueError
end Ex237

open Chains.Ex Ex237 in
/-- `im` is asked about `leaf`, some time later. -/
example : ∃ q p, askResolver (env237 100) (publishedMetadata member237) st "https://im" "https://leaf" "https://ta" = .ok q ∧ q.target = "https://im/resolve" ∧
    (Server.resolve Server.Ex91.R (env237 5000) st (Client.Resolving.asked q.query)).1 = .ok p ∧ p.get? "sub" = some (.str "https://leaf") := by
  obtain ⟨q, p, h1, h2, h3, -, h5, -⟩ := C237_resolver (env237 100) (env237 5000) J member237 host133 0 100 5000 st st [] [] rank109 "https://im" "https://leaf" "https://ta" "https://im/resolve" mIm237 mLeaf (mTa [])
    Server.Ex91.R (runs237 100 (by decide)) (runs237 5000 (by decide)) rfl rfl ⟨_, _, rfl, rfl, rfl⟩ (by decide) lasts237 rfl rfl (by decide) rfl rfl ⟨_, up237, rfl⟩
  exact ⟨q, p, h1, h2, h3, h5⟩

open Chains.Ex Ex237 in
/-- `im` is asked for a trust mark, and then whether there is one. -/
example : ∃ q q' mark is' body hs, askMark (env237 100) (publishedMetadata member237) st "https://im" "tm" "https://leaf" = .ok q ∧
    Tools.askStatus (env237 100) (publishedMetadata member237) Client.Requests.Ex.text st "https://im" "tm" "https://leaf" = .ok q' ∧
    Web.service (Web.markEndpoint (fun m => m.sub) 100 reads Web.Ex.shows) Web.Ex.issuer188 (.get q.query) = (.reply 200 (.text mark), is') ∧
    Web.service (Web.statusEndpoint 150 (fun _ => .error .valueError) reads Web.Ex.shows) is' (.get q'.query) = (.reply 200 body hs, is') := by
  obtain ⟨q, q', mark, is', body, hs, h1, -, h2, -, h3, -, -, h4⟩ := C237_mark (env237 100) J member237 host133 0 100 st [] rank109 "https://im" mIm237 Client.Requests.Ex.text Client.Requests.Ex.text_faithful
    "https://im/mark" "https://im/status" "tm" "https://leaf" (runs237 100 (by decide)) rfl rfl ⟨_, _, rfl, rfl, rfl⟩ (by decide) ⟨_, _, rfl, rfl, rfl⟩ (by decide) (by decide) (by decide)
    (fun m => m.sub) reads reads Web.Ex.shows Web.Ex.shows (fun _ _ => rfl) (fun _ _ => rfl) Web.Ex.renders (fun _ => .error .valueError) [("tm", { lifetime := some 100 })] [("tm", "f")] [] 100 150
    { lifetime := some 100 } rfl (by intro i j f hi hj; rw [Dict.get?_cons] at hi hj; split at hi <;> split at hj <;> simp_all [Dict.get?]) (by decide) (by simp) (show (150 : Int) ≤ 100 + 100 by decide)
  exact ⟨q, q', _, is', body, hs, h1, h2, h3, h4⟩

end Fed.Setup.Asking
