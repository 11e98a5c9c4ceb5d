import Verif.Server.Publish
import Verif.Server.FetchProps
/-
Properties of statements made from a directory of files: C146-C148.
-/
namespace Fed.Server.Publish
open Fed Fed.Server

theorem get?_fileData (f : Folder) (q : String) : (fileData f).get? q =
    if q = "metadata" then f.metadata else if q = "metadata_policy" then f.policy else if q = "constraints" then f.constraints
    else if q = "authority_hints" then f.authority else none := by
  obtain ⟨j, m, p, c, a⟩ := f
  by_cases h1 : q = "metadata"
  · subst h1; cases m <;> cases p <;> cases c <;> cases a <;> simp [fileData, Dict.get?]
  · by_cases h2 : q = "metadata_policy"
    · subst h2; cases m <;> cases p <;> cases c <;> cases a <;> simp [fileData, Dict.get?]
    · by_cases h3 : q = "constraints"
      · subst h3; cases m <;> cases p <;> cases c <;> cases a <;> simp [fileData, Dict.get?]
      · by_cases h4 : q = "authority_hints"
        · subst h4; cases m <;> cases p <;> cases c <;> cases a <;> simp [fileData, Dict.get?]
        · have e1 := Ne.symm h1; have e2 := Ne.symm h2; have e3 := Ne.symm h3; have e4 := Ne.symm h4
          cases m <;> cases p <;> cases c <;> cases a <;> simp [fileData, Dict.get?, h1, h2, h3, h4, e1, e2, e3, e4]

theorem makeId_inj {a b : String} (h : makeId a = makeId b) : a = b := by
  have h := congrArg String.toList h
  simp only [makeId, String.toList_append] at h
  exact String.toList_inj.1 (List.append_cancel_left h)

/-- A name that does not begin like a URL. -/
def Ordinary (name : String) : Prop := startsHttps name = false

instance (s : String) : Decidable (Ordinary s) := inferInstanceAs (Decidable (_ = _))

theorem Ordinary.not_encoded {s : String} (h : Ordinary s) : encoded s = false := by
  unfold Ordinary startsHttps at h
  cases he : encoded s with
  | false => rfl
  | true =>
    unfold encoded at he
    rw [List.isPrefixOf_iff_prefix] at he
    obtain ⟨r, hr⟩ := he
    have : "https".toList.isPrefixOf s.toList = true := by
      rw [List.isPrefixOf_iff_prefix]
      exact ⟨"%3A%2F%2F".toList ++ r, by rw [← hr, ← List.append_assoc]; rfl⟩
    rw [this] at h; cases h

/-- Arguments a caller may add: nothing that Python or cryptojwt refuses. -/
def GoodArgs (kwargs : Dict Val) : Prop :=
  kwargs.get? "iss" = none ∧ kwargs.get? "sub" = none ∧ kwargs.get? "key_jar" = none ∧
  ∀ v, kwargs.get? "lifetime" = some v → ∃ l, v = .int l

/-- What a statement of `iss` about `sub` is to say, from the files and what the caller adds: who, the keys of the subject, and
signed with keys of the issuer. -/
structure Says (lib : Lib) (dir : Dir) (now : Int) (iss sub : String) (kwargs : Dict Val) (m : Made) : Prop where
  issuer : m.payload.get? "iss" = some (.str ("https://" ++ iss))
  subject : m.payload.get? "sub" = some (.str ("https://" ++ sub))
  iat : m.payload.get? "iat" = some (.int now)
  exp : kwargs.get? "lifetime" = none → m.payload.get? "exp" = some (.int (now + 86400))
  keys : ∃ ks, (dir iss sub).jwks = some ks ∧ m.payload.get? "jwks" = some (.obj [("keys", .arr (ks.map lib.pub))])
  metadata : m.payload.get? "metadata" = ((kwargs.get? "metadata").or (dir iss sub).metadata).filter Val.truthy
  policy : m.payload.get? "metadata_policy" = ((kwargs.get? "metadata_policy").or (dir iss sub).policy).filter Val.truthy
  constraints : m.payload.get? "constraints" = ((kwargs.get? "constraints").or (dir iss sub).constraints).filter Val.truthy
  hints : m.payload.get? "authority_hints" = ((kwargs.get? "authority_hints").or (dir iss sub).authority).filter Val.truthy
  signed : (dir iss iss).jwks = some m.signers

/-- What the key jar of an object may hold: for the issuer and for subjects with ordinary names the keys in the directory. -/
structure Fresh (dir : Dir) (api : Api) : Prop where
  own : ∃ ks, (dir api.iss api.iss).jwks = some ks ∧ api.jar.get? (makeId api.iss) = some ks
  all : ∀ name ks, Ordinary name → api.jar.get? (makeId name) = some ks → (dir api.iss name).jwks = some ks

theorem makeApi_fresh {dir : Dir} {iss : String} {ks : List Val} (hi : iss ≠ "") (hk : (dir iss iss).jwks = some ks) :
    ∃ api, makeApi dir iss = .ok api ∧ api.iss = iss ∧ Fresh dir api := by
  refine ⟨⟨iss, [(makeId iss, ks)]⟩, ?_, rfl, ⟨ks, hk, by simp [Dict.get?]⟩, ?_⟩
  · simp [makeApi, hi, loadJwks, hk, Dict.set, Dict.get?]
  · intro name ks' _ h
    simp only [Dict.get?] at h
    split at h
    · rename_i he
      rw [← makeId_inj he]; simp only at h ⊢; rw [hk, ← Option.some.inj h]
    · cases h

/-- One statement about a subject with an ordinary name: what it says, and that the object stays as it should be. -/
theorem createFor_fresh (lib : Lib) (dir : Dir) (now : Int) (api : Api) (sub : String) (kwargs : Dict Val) (ks own : List Val)
    (hf : Fresh dir api) (ho : Ordinary sub) (hk : (dir api.iss sub).jwks = some ks) (hown : (dir api.iss api.iss).jwks = some own)
    (hne : own ≠ []) (hg : GoodArgs kwargs) :
    (∃ m, (createFor lib dir now api sub kwargs).1 = .ok m ∧ Says lib dir now api.iss sub kwargs m) ∧
    Fresh dir (createFor lib dir now api sub kwargs).2 ∧ (createFor lib dir now api sub kwargs).2.iss = api.iss := by
  obtain ⟨own', ho1, ho2⟩ := hf.own
  rw [hown] at ho1; cases ho1
  have hown' : ownKeys dir api sub = .ok api.jar := by
    unfold ownKeys; rw [if_pos]; simp [Dict.has, ho2]
  have hsub : subId lib sub = makeId sub := by simp [subId, ho.not_encoded]
  -- the jar afterwards
  have hj : ∃ jar, gatherInfo lib dir api sub = .ok (fileData (dir api.iss sub), jar) ∧ jar.get? (makeId sub) = some ks ∧
      Fresh dir { api with jar := jar } := by
    unfold gatherInfo
    rw [hown', hsub]
    cases hs : api.jar.get? (makeId sub) with
    | some ks' =>
      have := hf.all sub ks' ho hs
      rw [hk] at this; cases this
      exact ⟨api.jar, by simp [Dict.has, hs], hs, hf⟩
    | none =>
      refine ⟨api.jar.set (makeId sub) ks, by simp [Dict.has, hs, loadJwks, hk], Dict.get?_set_self _ _ _, ?_, ?_⟩
      · refine ⟨own, hown, ?_⟩
        show Dict.get? (api.jar.set _ _) _ = _
        rw [Dict.get?_set]
        split
        · rename_i he; rw [he, ho2] at hs; cases hs
        · exact ho2
      · intro name ks' hn h
        change Dict.get? (api.jar.set _ _) _ = _ at h
        rw [Dict.get?_set] at h
        split at h
        · rename_i he; cases h; rw [← makeId_inj he]; exact hk
        · exact hf.all name ks' hn h
  obtain ⟨jar, hgi, hjs, hfr⟩ := hj
  obtain ⟨own', ho3, ho4⟩ := hfr.own
  simp only at ho3 ho4
  rw [hown] at ho3; cases ho3
  have hargs : ∀ q, Dict.get? ((Dict.update (fileData (dir api.iss sub)) kwargs).set "jwks" (exportJwks lib jar (makeId sub))) q =
      if "jwks" = q then some (exportJwks lib jar (makeId sub)) else (kwargs.get? q).or ((fileData (dir api.iss sub)).get? q) := by
    intro q; rw [Dict.get?_set, Dict.get?_update]
  have hst : statedSub lib sub = makeId sub := by
    unfold Ordinary at ho; simp [statedSub, ho]
  unfold createFor
  rw [hgi]
  simp only [hst]
  generalize hA : (Dict.update (fileData (dir api.iss sub)) kwargs).set "jwks" (exportJwks lib jar (makeId sub)) = args at hargs
  obtain ⟨g1, g2, g3, g4⟩ := hg
  -- the statement is made
  have hok : ∃ p, createStatement (exportJwks lib jar "") now (makeId api.iss) (makeId sub) none args = .ok p := by
    unfold createStatement
    rw [if_neg (by
      simp [Dict.has, hargs, get?_fileData, g1, g2, g3])]
    have hl : param args "lifetime" (.int 86400) = (kwargs.get? "lifetime").getD (.int 86400) := by
      simp [param, hargs, get?_fileData]
    rw [hl]
    cases h : kwargs.get? "lifetime" with
    | none => exact ⟨_, rfl⟩
    | some v => obtain ⟨l, hl⟩ := g4 v h; subst hl; exact ⟨_, rfl⟩
  obtain ⟨p, hp⟩ := hok
  have hc := C59_payload _ _ _ _ _ _ _ hp
  rw [hp]
  simp only [ho4, Option.getD_some, if_neg hne]
  refine ⟨⟨_, rfl, ?_⟩, hfr, trivial⟩
  obtain ⟨c1, c2, c3, c4, _, c6, c7, _, c9, _⟩ := hc
  refine ⟨c2, c1, c3, ?_, ⟨ks, hk, ?_⟩, ?_, ?_, ?_, ?_, hown⟩
  · intro hl
    exact c9 86400 (.inr ⟨by rw [hargs]; simp [hl, get?_fileData], rfl⟩) (by decide)
  · have := c7 (exportJwks lib jar (makeId sub)) (by rw [hargs]; simp)
    rw [show p.get? "jwks" = _ from this]
    simp [exportJwks, hjs]
  · rw [show p.get? "metadata" = _ from c4 "metadata" (by simp), hargs]; simp [get?_fileData]
  · rw [show p.get? "metadata_policy" = _ from c4 "metadata_policy" (by simp), hargs]; simp [get?_fileData]
  · rw [show p.get? "constraints" = _ from c4 "constraints" (by simp), hargs]; simp [get?_fileData]
  · rw [show p.get? "authority_hints" = _ from c6 rfl, hargs]; simp [get?_fileData]

/-! ## C146: the configuration of an entity in the directory -/

/-- C146 in full: an entity with keys in the directory gets the configuration the files describe. -/
def C146_full : Prop := ∀ (lib : Lib) (dir : Dir) (now : Int) (name : String) (ks : List Val), name ≠ "" → (dir name name).jwks = some ks → ks ≠ [] →
  ∃ m, publish lib dir now ⟨name, "/.well-known/openid-federation", []⟩ = .ok m ∧ Says lib dir now name name [] m

/-- C146 for entities whose host name does not begin with `https`. -/
theorem C146_configuration_partial (lib : Lib) (dir : Dir) (now : Int) (name : String) (ks : List Val) (hn : name ≠ "")
    (ho : Ordinary name) (hk : (dir name name).jwks = some ks) (hks : ks ≠ []) (subs : List String) :
    ∃ m, publish lib dir now ⟨name, "/.well-known/openid-federation", subs⟩ = .ok m ∧ Says lib dir now name name [] m := by
  obtain ⟨api, h1, h2, h3⟩ := makeApi_fresh hn hk
  subst h2
  obtain ⟨⟨m, hm, hs⟩, _⟩ := createFor_fresh lib dir now api api.iss [] ks ks h3 ho hk hk hks
    ⟨by simp [Dict.get?], by simp [Dict.get?], by simp [Dict.get?], by simp [Dict.get?]⟩
  exact ⟨m, by simp [publish, configuration, h1, hm], hs⟩

namespace Ex
def lib : Lib := ⟨fun v => v, fun s => if s = "https%3A%2F%2Fleaf.org" then "https://leaf.org" else s,
  fun s => if s = "https://leaf.org" then "leaf.org" else if s = "https://ta.org" then "ta.org" else ""⟩
def meta1 : Val := .obj [("openid_relying_party", .obj [("client_name", .str "x")])]
def policy1 : Val := .obj [("openid_relying_party", .obj [("contacts", .obj [("add", .str "ops@ta.org")])])]
/-- A trust anchor, a leaf, and a host called https.org. -/
def dir : Dir := fun i s =>
  if i = "leaf.org" ∧ s = "leaf.org" then { jwks := some [.str "kl"], metadata := some meta1, authority := some (.arr [.str "https://ta.org"]) }
  else if i = "ta.org" ∧ s = "ta.org" then { jwks := some [.str "kt"], metadata := some (.obj [("federation_entity", .obj [("name", .str "TA")])]) }
  else if i = "ta.org" ∧ s = "leaf.org" then { jwks := some [.str "kl"], policy := some policy1 }
  else if i = "ta.org" ∧ s = "https%3A%2F%2Fleaf.org" then { jwks := some [.str "kl"], policy := some policy1 }
  else if i = "leaf.org" ∧ s = "ta.org" then { jwks := some [.str "kt"] }
  else if i = "https.org" ∧ s = "https.org" then { jwks := some [.str "kh"] }
  else {}
end Ex

example : "leaf.org" ≠ "" ∧ Ordinary "leaf.org" ∧ (Ex.dir "leaf.org" "leaf.org").jwks = some [.str "kl"] ∧ [Val.str "kl"] ≠ [] := by decide +kernel

/-- C146 does not hold: a host whose name begins with `https` is taken for a URL, and the configuration has another subject than
issuer. -/
theorem C146_host_violation : ¬ C146_full := by
  intro h
  obtain ⟨m, hm, hs⟩ := h Ex.lib Ex.dir 1000 "https.org" [.str "kh"] (by decide) (by decide +kernel) (by decide)
  have h1 : (publish Ex.lib Ex.dir 1000 ⟨"https.org", "/.well-known/openid-federation", []⟩).toOption.bind (fun m => m.payload.get? "sub") =
    some (.str "https.org") := by decide +kernel
  rw [hm] at h1
  simp only [Except.toOption, Option.bind_some, hs.subject] at h1
  revert h1; decide +kernel

/-! ## C147: statements about subjects in the directory -/

/-- Several requests to one object, the directory unchanged. -/
def createAll (lib : Lib) (dir : Dir) (now : Int) : Api → List (String × Dict Val) → Api
  | api, [] => api
  | api, (s, kw) :: rs => createAll lib dir now (createFor lib dir now api s kw).2 rs

/-- C147 in full: an object for an issuer makes, after whatever requests, the statement that the files describe at that
time. `dir0`: the files when the object was made and used before. -/
def C147_full : Prop := ∀ (lib : Lib) (dir0 dir : Dir) (now0 now : Int) (iss sub : String) (earlier : List (String × Dict Val)) (kwargs : Dict Val)
  (api : Api) (ks own : List Val), iss ≠ "" → makeApi dir0 iss = .ok api → (dir iss sub).jwks = some ks → (dir iss iss).jwks = some own → own ≠ [] →
  GoodArgs kwargs → ∃ m, (createFor lib dir now (createAll lib dir0 now0 api earlier) sub kwargs).1 = .ok m ∧
    Says lib dir now iss sub kwargs m

/-- A failed request, too, leaves the object as it should be. -/
theorem createFor_keeps (lib : Lib) (dir : Dir) (now : Int) (api : Api) (sub : String) (kwargs : Dict Val)
    (hf : Fresh dir api) (ho : Ordinary sub) :
    Fresh dir (createFor lib dir now api sub kwargs).2 ∧ (createFor lib dir now api sub kwargs).2.iss = api.iss := by
  obtain ⟨own, ho1, ho2⟩ := hf.own
  have hown' : ownKeys dir api sub = .ok api.jar := by
    unfold ownKeys; rw [if_pos]; simp [Dict.has, ho2]
  have hsub : subId lib sub = makeId sub := by simp [subId, ho.not_encoded]
  have key : ∀ info jar, gatherInfo lib dir api sub = .ok (info, jar) → Fresh dir { api with jar := jar } := by
    intro info jar h
    unfold gatherInfo at h
    rw [hown', hsub] at h
    cases hs : api.jar.get? (makeId sub) with
    | some ks => simp [Dict.has, hs] at h; rw [← h.2]; exact hf
    | none =>
      cases hk : (dir api.iss sub).jwks with
      | none => simp [Dict.has, hs, loadJwks, hk] at h
      | some ks =>
        simp [Dict.has, hs, loadJwks, hk] at h
        rw [← h.2]
        refine ⟨⟨own, ho1, ?_⟩, ?_⟩
        · show Dict.get? (api.jar.set _ _) _ = _
          rw [Dict.get?_set]
          split
          · rename_i he; rw [he, ho2] at hs; cases hs
          · exact ho2
        · intro name ks' hn h
          change Dict.get? (api.jar.set _ _) _ = _ at h
          rw [Dict.get?_set] at h
          split at h
          · rename_i he; cases h; rw [← makeId_inj he]; exact hk
          · exact hf.all name ks' hn h
  unfold createFor
  cases hg : gatherInfo lib dir api sub with
  | error e => exact ⟨hf, rfl⟩
  | ok r =>
    obtain ⟨info, jar⟩ := r
    have := key info jar hg
    simp only
    split
    · exact ⟨this, rfl⟩
    · split <;> exact ⟨this, rfl⟩

theorem createAll_keeps (lib : Lib) (dir : Dir) (now : Int) : ∀ (rs : List (String × Dict Val)) (api : Api), Fresh dir api →
    (∀ r ∈ rs, Ordinary r.1) → Fresh dir (createAll lib dir now api rs) ∧ (createAll lib dir now api rs).iss = api.iss
  | [], _, hf, _ => ⟨hf, rfl⟩
  | (s, kw) :: rs, api, hf, h => by
    obtain ⟨h1, h2⟩ := createFor_keeps lib dir now api s kw hf (h (s, kw) (by simp))
    obtain ⟨h3, h4⟩ := createAll_keeps lib dir now rs _ h1 (fun r hr => h r (by simp [hr]))
    exact ⟨h3, h4.trans h2⟩

/-- C147 for names that do not begin with `https`, with a directory that has not changed since the object was made, whatever the
earlier requests were for and whether they succeeded. Missing: other names, and changed directories. -/
theorem C147_statement_partial (lib : Lib) (dir : Dir) (now0 now : Int) (iss sub : String) (earlier : List (String × Dict Val))
    (kwargs : Dict Val) (ks own : List Val) (hi : iss ≠ "") (ho : Ordinary sub) (he : ∀ r ∈ earlier, Ordinary r.1)
    (hk : (dir iss sub).jwks = some ks) (hown : (dir iss iss).jwks = some own) (hne : own ≠ []) (hg : GoodArgs kwargs) :
    ∃ api m, makeApi dir iss = .ok api ∧ (createFor lib dir now (createAll lib dir now0 api earlier) sub kwargs).1 = .ok m ∧
      Says lib dir now iss sub kwargs m := by
  obtain ⟨api, h1, h2, h3⟩ := makeApi_fresh hi hown
  obtain ⟨h4, h5⟩ := createAll_keeps lib dir now0 earlier api h3 he
  have h6 : (createAll lib dir now0 api earlier).iss = iss := h5.trans h2
  obtain ⟨⟨m, hm, hs⟩, _⟩ := createFor_fresh lib dir now _ sub kwargs ks own h4 ho (by rw [h6]; exact hk) (by rw [h6]; exact hown) hne hg
  exact ⟨api, m, h1, hm, by rw [h6] at hs; exact hs⟩

/-- The hypotheses are met by the directory of the example, after a request for an unknown subject and one about the issuer. -/
example : "ta.org" ≠ "" ∧ Ordinary "leaf.org" ∧ (∀ r ∈ [("nobody.org", ([] : Dict Val)), ("ta.org", [])], Ordinary r.1) ∧
    (Ex.dir "ta.org" "leaf.org").jwks = some [.str "kl"] ∧ (Ex.dir "ta.org" "ta.org").jwks = some [.str "kt"] ∧ [Val.str "kt"] ≠ [] := by
  decide +kernel
example : GoodArgs [("aud", .str "https://rp.org"), ("lifetime", .int 60)] := by
  refine ⟨by decide +kernel, by decide +kernel, by decide +kernel, fun v h => ⟨60, ?_⟩⟩
  have : Dict.get? [("aud", Val.str "https://rp.org"), ("lifetime", .int 60)] "lifetime" = some (.int 60) := by decide +kernel
  rw [this] at h; exact (Option.some.inj h).symm

theorem goodArgs_nil : GoodArgs [] := ⟨by simp [Dict.get?], by simp [Dict.get?], by simp [Dict.get?], by simp [Dict.get?]⟩

/-- C147 does not hold for subjects named by an encoded URL: their keys are loaded under one name and looked for under another, the
statement has none, -/
theorem C147_encoded_violation : ¬ C147_full := by
  intro h
  obtain ⟨m, hm, hs⟩ := h Ex.lib Ex.dir Ex.dir 1000 1000 "ta.org" "https%3A%2F%2Fleaf.org" [] [] ⟨"ta.org", [("https://ta.org", [.str "kt"])]⟩
    [.str "kl"] [.str "kt"] (by decide) (by rfl) (by decide +kernel) (by decide +kernel) (by decide) goodArgs_nil
  have h1 : (createFor Ex.lib Ex.dir 1000 ⟨"ta.org", [("https://ta.org", [.str "kt"])]⟩ "https%3A%2F%2Fleaf.org" []).1.toOption.bind
      (fun m => m.payload.get? "jwks") = some (.obj [("keys", .arr [])]) := by decide +kernel
  simp only [createAll] at hm
  rw [hm] at h1
  obtain ⟨ks, hk, hj⟩ := hs.keys
  simp only [Except.toOption, Option.bind_some, hj] at h1
  have h2 : (Ex.dir "ta.org" "https%3A%2F%2Fleaf.org").jwks = some [.str "kl"] := by decide +kernel
  rw [h2] at hk; cases hk
  revert h1; decide +kernel

namespace Ex
/-- The same directory after the leaf has changed its keys. -/
def dir2 : Dir := fun i s => if s = "leaf.org" then { dir i s with jwks := some [.str "kl2"] } else dir i s
end Ex

/-- and an object goes on stating the keys it has once read. -/
theorem C147_rollover_violation : ¬ C147_full := by
  intro h
  obtain ⟨m, hm, hs⟩ := h Ex.lib Ex.dir Ex.dir2 1000 1000 "ta.org" "leaf.org" [("leaf.org", [])] [] ⟨"ta.org", [("https://ta.org", [.str "kt"])]⟩
    [.str "kl2"] [.str "kt"] (by decide) (by rfl) (by decide +kernel) (by decide +kernel) (by decide) goodArgs_nil
  have h1 : (createFor Ex.lib Ex.dir2 1000 (createAll Ex.lib Ex.dir 1000 ⟨"ta.org", [("https://ta.org", [.str "kt"])]⟩ [("leaf.org", [])])
      "leaf.org" []).1.toOption.bind (fun m => m.payload.get? "jwks") = some (.obj [("keys", .arr [.str "kl"])]) := by decide +kernel
  rw [hm] at h1
  obtain ⟨ks, hk, hj⟩ := hs.keys
  simp only [Except.toOption, Option.bind_some, hj] at h1
  have h2 : (Ex.dir2 "ta.org" "leaf.org").jwks = some [.str "kl2"] := by decide +kernel
  rw [h2] at hk; cases hk
  revert h1; decide +kernel

/-! ## C148: asking the publisher for a statement -/

/-- C148 in full: who asks an authority for a statement about a subject gets the one of that authority about the subject. -/
def C148_full : Prop := ∀ (lib : Lib) (dir : Dir) (now : Int) (authority path subject : String) (more : List String) (ks own : List Val),
  authority ≠ "" → path ≠ "/.well-known/openid-federation" → lib.netloc subject ≠ "" → Ordinary authority → Ordinary (lib.netloc subject) →
  (dir authority (lib.netloc subject)).jwks = some ks → (dir authority authority).jwks = some own → own ≠ [] →
  ∃ m, publish lib dir now ⟨authority, path, subject :: more⟩ = .ok m ∧ Says lib dir now authority (lib.netloc subject) [] m

/-- Whatever the publisher answers to such a request is issued in the name of the subject. -/
theorem publish_iss (lib : Lib) (dir : Dir) (now : Int) (authority path subject : String) (more : List String) (m : Made)
    (hp : path ≠ "/.well-known/openid-federation") (h : publish lib dir now ⟨authority, path, subject :: more⟩ = .ok m) :
    m.payload.get? "iss" = some (.str (makeId (lib.netloc subject))) ∧ m.payload.get? "sub" = some (.str (statedSub lib authority)) := by
  simp only [publish, if_neg hp, statement] at h
  have hiss : ∀ api, makeApi dir (lib.netloc subject) = .ok api → api.iss = lib.netloc subject := by
    intro api h
    unfold makeApi at h
    split at h
    · split at h
      · cases h; rfl
      · cases h
    · cases h; rfl
  cases ha : makeApi dir (lib.netloc subject) with
  | error e => rw [ha] at h; cases h
  | ok api =>
    rw [ha] at h
    simp only [createFor] at h
    cases hg : gatherInfo lib dir api authority with
    | error e => rw [hg] at h; cases h
    | ok r =>
      obtain ⟨info, jar⟩ := r
      rw [hg] at h
      simp only at h
      split at h
      · cases h
      · rename_i p hp
        split at h
        · cases h
        · cases h
          have := C59_payload _ _ _ _ _ _ _ hp
          rw [hiss api ha] at this
          exact ⟨this.2.1, this.1⟩

/-- C148 never holds where the subject is another than the authority: an answer, if there is one, is not issued by the authority. -/
theorem C148_never (lib : Lib) (dir : Dir) (now : Int) (authority path subject : String) (more : List String) (m : Made)
    (hp : path ≠ "/.well-known/openid-federation") (hne : lib.netloc subject ≠ authority)
    (h : publish lib dir now ⟨authority, path, subject :: more⟩ = .ok m) :
    ¬ Says lib dir now authority (lib.netloc subject) [] m := by
  intro hs
  have := (publish_iss lib dir now authority path subject more m hp h).1
  rw [hs.issuer] at this
  simp only [Option.some.injEq, Val.str.injEq] at this
  exact hne (makeId_inj this).symm

/-- There are such answers. -/
example : ∃ m, publish Ex.lib Ex.dir 1000 ⟨"ta.org", "/fetch", ["https://leaf.org"]⟩ = .ok m := by
  refine ⟨⟨_, _⟩, by rfl⟩

theorem C148_swapped_violation : ¬ C148_full := by
  intro h
  obtain ⟨m, hm, hs⟩ := h Ex.lib Ex.dir 1000 "ta.org" "/fetch" "https://leaf.org" [] [.str "kl"] [.str "kt"] (by decide) (by decide) (by decide +kernel)
    (by decide +kernel) (by decide +kernel) (by decide +kernel) (by decide +kernel) (by decide)
  exact C148_never Ex.lib Ex.dir 1000 "ta.org" "/fetch" "https://leaf.org" [] m (by decide) (by decide +kernel) hm hs

/-- C148 where the subject is the authority itself. Missing, and false by `C148_never`: all other subjects. -/
theorem C148_self_partial (lib : Lib) (dir : Dir) (now : Int) (authority path subject : String) (more : List String) (own : List Val)
    (ha : authority ≠ "") (hp : path ≠ "/.well-known/openid-federation") (hs : lib.netloc subject = authority) (ho : Ordinary authority)
    (hk : (dir authority authority).jwks = some own) (hne : own ≠ []) :
    ∃ m, publish lib dir now ⟨authority, path, subject :: more⟩ = .ok m ∧ Says lib dir now authority authority [] m := by
  obtain ⟨api, h1, h2, h3⟩ := makeApi_fresh ha hk
  subst h2
  obtain ⟨⟨m, hm, hs'⟩, _⟩ := createFor_fresh lib dir now api api.iss [] own own h3 ho hk hk hne goodArgs_nil
  exact ⟨m, by simp [publish, hp, statement, hs, h1, hm], hs'⟩

example : "ta.org" ≠ "" ∧ "/fetch" ≠ "/.well-known/openid-federation" ∧ Ex.lib.netloc "https://ta.org" = "ta.org" ∧ Ordinary "ta.org" ∧
    (Ex.dir "ta.org" "ta.org").jwks = some [.str "kt"] := by decide +kernel

end Fed.Server.Publish
