import Verif.Registration.AutomaticProps
/-
Properties C94 (addresses), C154 (the keys recorded for a client), and C64/C65 with the types and entries spelled out.
-/
namespace Fed.Registration
open Fed

/-! ## C94, the addresses with a form of their own -/

theorem postLogout_own {R : RegEnv} {request cinfo out : Dict Val} (h : postLogout R request cinfo = .ok out) :
    (∀ v, request.get? "post_logout_redirect_uri" = some v → v.truthy = true →
      ∃ u p base q, v = .str u ∧ R.U.parse u = .ok p ∧ p.fragment = "" ∧ R.U.split u = .ok (base, q) ∧
        out.get? "post_logout_redirect_uri" = some (.arr [.str base, q])) ∧
    ((∀ v, request.get? "post_logout_redirect_uri" = some v → v.truthy = false) → out = cinfo) := by
  unfold postLogout at h
  cases hr : request.get? "post_logout_redirect_uri" with
  | none =>
    rw [hr] at h
    simp only [Except.ok.injEq] at h
    exact ⟨fun v hv => (nomatch hv), fun _ => h.symm⟩
  | some v =>
    rw [hr] at h
    simp only at h
    by_cases hv : v.truthy = true
    · rw [if_pos hv] at h
      refine ⟨fun v' hv' _ => ?_, fun h0 => absurd (h0 v rfl) (by simp [hv])⟩
      cases hv'
      cases v with
      | str u =>
        simp only at h
        cases hp : R.U.parse u with
        | error e => rw [hp] at h; cases h
        | ok p =>
          rw [hp] at h
          simp only [ok_bind] at h
          by_cases hf : p.fragment = ""
          · rw [if_neg (by simp [hf])] at h
            cases hs : R.U.split u with
            | error e => rw [hs] at h; cases h
            | ok x =>
              obtain ⟨base, q⟩ := x
              rw [hs] at h
              simp only [ok_bind, Except.ok.injEq] at h
              subst h
              exact ⟨u, p, base, q, rfl, hp, hf, hs, Dict.get?_set_self _ _ _⟩
          · rw [if_pos hf] at h; cases h
      | _ => cases h
    · rw [if_neg hv] at h
      simp only [Except.ok.injEq] at h
      exact ⟨fun v' hv' ht => by cases hv'; exact absurd ht hv, fun _ => h.symm⟩

/-- What is recorded for one of the request_uris. -/
def RequestUriAs (R : RegEnv) (asked recorded : Val) : Prop :=
  ∃ u p, asked = .str u ∧ R.U.parse u = .ok p ∧ p.query = "" ∧
    (p.fragment = "" → recorded = .arr [.str u, .str ""]) ∧ (p.fragment ≠ "" → recorded = .arr ((R.splitHash u).map .str))

theorem requestUriLoop_ok {R : RegEnv} : ∀ {us rs : List Val}, requestUriLoop R us = .ok rs →
    rs.length = us.length ∧ ∀ x ∈ us.zip rs, RequestUriAs R x.1 x.2 := by
  intro us
  induction us with
  | nil =>
    intro rs h
    simp only [requestUriLoop, Except.ok.injEq] at h
    subst h
    exact ⟨rfl, fun x hx => by cases hx⟩
  | cons a us ih =>
    intro rs h
    rw [requestUriLoop] at h
    cases h1 : requestUri R a with
    | error e => rw [h1] at h; cases h
    | ok r =>
      rw [h1] at h
      simp only [ok_bind] at h
      cases h2 : requestUriLoop R us with
      | error e => rw [h2] at h; cases h
      | ok rs' =>
        rw [h2] at h
        simp only [ok_bind, Except.ok.injEq] at h
        subst h
        obtain ⟨h3, h4⟩ := ih h2
        refine ⟨by simp [h3], fun x hx => ?_⟩
        rw [List.zip_cons_cons, List.mem_cons] at hx
        rcases hx with rfl | hx
        · cases a with
          | str u =>
            simp only [requestUri] at h1
            cases hp : R.U.parse u with
            | error e => rw [hp] at h1; cases h1
            | ok p =>
              rw [hp] at h1
              simp only [ok_bind] at h1
              by_cases hq : p.query = ""
              · rw [if_neg (by simp [hq])] at h1
                refine ⟨u, p, rfl, hp, hq, fun hf => ?_, fun hf => ?_⟩
                · rw [if_neg (by simp [hf])] at h1
                  cases h1; rfl
                · rw [if_pos hf] at h1
                  cases h1; rfl
              · rw [if_pos hq] at h1; cases h1
          | _ => cases h1
        · exact h4 x hx

theorem requestUris_own {R : RegEnv} {request cinfo out : Dict Val} (h : requestUris R request cinfo = .ok out) :
    (∀ v, request.get? "request_uris" = some v → ∃ us rs, pyIter v = .ok us ∧ out.get? "request_uris" = some (.arr rs) ∧
      rs.length = us.length ∧ ∀ x ∈ us.zip rs, RequestUriAs R x.1 x.2) ∧
    (request.get? "request_uris" = none → out = cinfo) := by
  unfold requestUris at h
  cases hr : request.get? "request_uris" with
  | none =>
    rw [hr] at h
    simp only [Except.ok.injEq] at h
    exact ⟨fun v hv => (nomatch hv), fun _ => h.symm⟩
  | some v =>
    rw [hr] at h
    simp only at h
    refine ⟨fun v' hv' => ?_, fun h0 => (nomatch h0)⟩
    cases hv'
    cases h1 : pyIter v with
    | error e => rw [h1] at h; cases h
    | ok us =>
      rw [h1] at h
      simp only [ok_bind] at h
      cases h2 : requestUriLoop R us with
      | error e => rw [h2] at h; cases h
      | ok rs =>
        rw [h2] at h
        simp only [ok_bind, Except.ok.injEq] at h
        subst h
        obtain ⟨h3, h4⟩ := requestUriLoop_ok h2
        exact ⟨us, rs, rfl, Dict.get?_set_self _ _ _, h3, h4⟩

theorem clientInfo_addresses {R : RegEnv} {request cinfo out : Dict Val} (h : clientInfo R request cinfo = .ok out) :
    (∀ v, request.get? "post_logout_redirect_uri" = some v → v.truthy = true →
      ∃ u p base q, v = .str u ∧ R.U.parse u = .ok p ∧ p.fragment = "" ∧ R.U.split u = .ok (base, q) ∧
        out.get? "post_logout_redirect_uri" = some (.arr [.str base, q])) ∧
    ((∀ v, request.get? "post_logout_redirect_uri" = some v → v.truthy = false) →
      out.get? "post_logout_redirect_uri" = (request.get? "post_logout_redirect_uri").or (cinfo.get? "post_logout_redirect_uri")) ∧
    (∀ v, request.get? "request_uris" = some v → ∃ us rs, pyIter v = .ok us ∧ out.get? "request_uris" = some (.arr rs) ∧
      rs.length = us.length ∧ ∀ x ∈ us.zip rs, RequestUriAs R x.1 x.2) ∧
    (request.get? "request_uris" = none → out.get? "request_uris" = cinfo.get? "request_uris") := by
  unfold clientInfo at h
  cases h1 : postLogout R request (copyClaims ignored request cinfo) with
  | error e => simp [h1] at h
  | ok c1 =>
    simp only [h1, ok_bind] at h
    cases h2 : redirectUris R request c1 with
    | error e => rw [h2] at h; simp at h
    | ok c2 =>
      rw [h2] at h
      simp only [ok_bind] at h
      cases h3 : requestUris R request c2 with
      | error e => rw [h3] at h; simp at h
      | ok c3 =>
        rw [h3] at h
        simp only [ok_bind] at h
        cases h4 : pageUris R request ["policy_uri", "logo_uri", "tos_uri"] c3 with
        | error e => rw [h4] at h; simp at h
        | ok c4 =>
          rw [h4] at h
          simp only [ok_bind] at h
          have g0 := copyClaims_get? ignored request cinfo
          have g2 := redirectUris_get? h2
          have g3 := requestUris_get? h3
          have g4 := pageUris_get? (by decide) h4
          have g5 := signingAlgs_get? h
          have p1 : out.get? "post_logout_redirect_uri" = c1.get? "post_logout_redirect_uri" := by
            rw [(g5 _).1 (by decide), (g4 _).1 (.inl (by decide)), g3 _ (by decide), g2.1 _ (by decide)]
          have p2 : out.get? "request_uris" = c3.get? "request_uris" := by
            rw [(g5 _).1 (by decide), (g4 _).1 (.inl (by decide))]
          have l := postLogout_own h1
          have r := requestUris_own h3
          refine ⟨fun v hv ht => ?_, fun hn => ?_, fun v hv => ?_, fun hn => ?_⟩
          · rw [p1]; exact l.1 v hv ht
          · rw [p1, l.2 hn, g0, if_neg (by decide)]
          · rw [p2]; exact r.1 v hv
          · rw [p2, r.2 hn, g2.1 _ (by decide), postLogout_get? h1 _ (by decide), g0, if_neg (by decide), hn]; rfl

/-- C94, the addresses kept in a form of their own: the page to return to after logging out is kept as base and query, of a URL without fragment; each of the request URIs is kept, in
order, as a pair, of a URL without query. -/
theorem C94_addresses (R : RegEnv) (S : Server) (request : Dict Val) (newId setSecret : Bool) (reserved : List String) (client : String) (resp : Dict Val)
    (h : (setup R S request newId setSecret reserved).1 = .ok (client, resp)) :
    ∃ req info, Considered R request newId req ∧ (setup R S request newId setSecret reserved).2.cdb.get? client = some info ∧
      (∀ v, req.get? "post_logout_redirect_uri" = some v → v.truthy = true →
        ∃ u p base q, v = .str u ∧ R.U.parse u = .ok p ∧ p.fragment = "" ∧ R.U.split u = .ok (base, q) ∧
          info.get? "post_logout_redirect_uri" = some (.arr [.str base, q])) ∧
      (req.get? "post_logout_redirect_uri" = none → info.get? "post_logout_redirect_uri" = none) ∧
      (∀ v, req.get? "request_uris" = some v → ∃ us rs, pyIter v = .ok us ∧ info.get? "request_uris" = some (.arr rs) ∧
        rs.length = us.length ∧ ∀ x ∈ us.zip rs, RequestUriAs R x.1 x.2) ∧
      (req.get? "request_uris" = none → info.get? "request_uris" = none) := by
  obtain ⟨req, info, h1, -, h3, h4, -⟩ := setup_done h
  obtain ⟨g1, g2, g3, g4⟩ := clientInfo_addresses h3
  have none_of : ∀ k, k ∉ serverNames → (skeleton R newId setSecret client).get? k = none := by
    intro k hk
    rw [Dict.get?_eq_none_iff]
    exact fun h0 => hk (skeleton_keys _ _ _ _ k h0)
  refine ⟨req, info, h1, h4, g1, fun hn => ?_, g3, fun hn => ?_⟩
  · rw [g2 (fun v hv => by rw [hn] at hv; cases hv), hn, none_of _ (by decide)]; rfl
  · rw [g4 hn, none_of _ (by decide)]

example : ((setup Ex.R Ex.S (("post_logout_redirect_uri", .str "https://rp/cb") :: ("request_uris", .arr [.str "https://rp/cb"]) ::
      Ex.request "web" ["https://rp/cb"]) true true []).2.cdb.get? "c0").map
        (fun info => (info.get? "post_logout_redirect_uri", info.get? "request_uris")) =
    some (some (.arr [.str "https://rp/cb", .null]), some (.arr [.arr [.str "https://rp/cb", .str ""]])) := by
  decide +kernel

/-! ## C154 -/

/-- The claims that say where a client's keys are. -/
def keyClaims : List String := ["signed_jwks_uri", "jwks_uri", "jwks"]

/-- The metadata says where keys of the client are. -/
def NamesKeys (req : Dict Val) : Prop := ∃ k ∈ keyClaims, ∃ v, req.get? k = some v ∧ v.truthy = true

/-- The source is the one the metadata names. -/
def NamedBy (req : Dict Val) : KeySource → Prop
  | .url v => req.get? "jwks_uri" = some v
  | .jwks v => req.get? "jwks" = some v
  | .secret _ => False

/-- The keys recorded for a client. -/
def Server.keysOf (S : Server) (client : String) : List KeySource := (S.keys.get? client).getD []

/-- C154 in full, first half: a client whose metadata says where its keys are has some recorded. -/
def C154_recorded_full : Prop :=
  ∀ (R : RegEnv) (S : Server) (request : Dict Val) (newId setSecret : Bool) (reserved : List String) (client : String) (resp : Dict Val),
    (setup R S request newId setSecret reserved).1 = .ok (client, resp) →
    ∃ req, Considered R request newId req ∧ (NamesKeys req → ∃ k ∈ (setup R S request newId setSecret reserved).2.keysOf client, ∀ s, k ≠ .secret s)

/-- C154 in full, second half: no keys are recorded for the client but those its metadata names and the secret it has been given. -/
def C154_no_others_full : Prop :=
  ∀ (R : RegEnv) (S : Server) (request : Dict Val) (newId setSecret : Bool) (reserved : List String) (client : String) (resp : Dict Val),
    (setup R S request newId setSecret reserved).1 = .ok (client, resp) →
    ∃ req, Considered R request newId req ∧ ∀ k ∈ (setup R S request newId setSecret reserved).2.keysOf client,
      NamedBy req k ∨ (setSecret = true ∧ k = .secret (R.secret client))

/-- C154 does not hold: a client that publishes its keys signed has none recorded, not even those it states directly. -/
theorem C154_signed_violation : ¬ C154_recorded_full := by
  intro h
  obtain ⟨req, ⟨req0, h1, h2⟩, h3⟩ := h Ex.R Ex.S (("signed_jwks_uri", .str "https://rp/jwks.jose") :: ("jwks", .obj [("keys", .arr [.int 1])]) :: Ex.request "web" ["https://rp/cb"])
    true true [] "c0" [("client_id", .str "c0"), ("client_secret", .str "secret of c0"), ("redirect_uris", .arr [.arr [.str "https://rp/cb", .obj []]])] (by decide +kernel)
  have e : req0 = ("signed_jwks_uri", .str "https://rp/jwks.jose") :: ("jwks", .obj [("keys", .arr [.int 1])]) :: Ex.request "web" ["https://rp/cb"] := by
    have : filterRequest Ex.R.A Ex.R.E ((("signed_jwks_uri", Val.str "https://rp/jwks.jose") :: ("jwks", .obj [("keys", .arr [.int 1])]) :: Ex.request "web" ["https://rp/cb"]).filter
        fun p => decide (p.2 ≠ .str "")) =
        .ok (("signed_jwks_uri", .str "https://rp/jwks.jose") :: ("jwks", .obj [("keys", .arr [.int 1])]) :: Ex.request "web" ["https://rp/cb"]) := by decide +kernel
    rw [this] at h1
    cases h1; rfl
  subst e
  subst h2
  obtain ⟨k, hk, hs⟩ := h3 ⟨"signed_jwks_uri", by decide, _, rfl, rfl⟩
  have : (setup Ex.R Ex.S (("signed_jwks_uri", .str "https://rp/jwks.jose") :: ("jwks", .obj [("keys", .arr [.int 1])]) :: Ex.request "web" ["https://rp/cb"]) true true []).2.keysOf "c0" =
    [.secret "secret of c0"] := by decide +kernel
  rw [this, List.mem_singleton] at hk
  exact hs _ hk

/-- Nor is a client that registers again rid of the keys it had before. -/
theorem C154_old_keys_violation : ¬ C154_no_others_full := by
  intro h
  obtain ⟨req, ⟨req0, h1, h2⟩, h3⟩ := h Ex.R { Ex.S with keys := [("rp", [.jwks (.str "stolen")])] } (("client_id", .str "rp") :: ("jwks", .str "new") :: Ex.request "web" ["https://rp/cb"])
    false false [] "rp" [("client_id", .str "rp"), ("redirect_uris", .arr [.arr [.str "https://rp/cb", .obj []]])] (by decide +kernel)
  have e : req0 = ("client_id", .str "rp") :: ("jwks", .str "new") :: Ex.request "web" ["https://rp/cb"] := by
    have : filterRequest Ex.R.A Ex.R.E ((("client_id", Val.str "rp") :: ("jwks", .str "new") :: Ex.request "web" ["https://rp/cb"]).filter fun p => decide (p.2 ≠ .str "")) =
        .ok (("client_id", .str "rp") :: ("jwks", .str "new") :: Ex.request "web" ["https://rp/cb"]) := by decide +kernel
    rw [this] at h1
    cases h1; rfl
  subst e
  subst h2
  rcases h3 (.jwks (.str "stolen")) (by decide +kernel) with h4 | ⟨h4, -⟩
  · exact absurd h4 (by simp only [NamedBy]; decide)
  · exact absurd h4 (by decide)

/-- The sources a registration records. -/
inductive Records (req : Dict Val) : List KeySource → Prop
  | signed (v) : req.get? "signed_jwks_uri" = some v → v.truthy = true → Records req []
  | url (v) : (∀ w, req.get? "signed_jwks_uri" = some w → w.truthy = false) → req.get? "jwks_uri" = some v → v.truthy = true → Records req [.url v]
  | jwks (v) : (∀ k ∈ ["signed_jwks_uri", "jwks_uri"], ∀ w, req.get? k = some w → w.truthy = false) → req.get? "jwks" = some v → v.truthy = true → Records req [.jwks v]
  | nothing : (∀ k ∈ keyClaims, ∀ w, req.get? k = some w → w.truthy = false) → Records req []

theorem addKeys_keysOf (S : Server) (c : String) (k : KeySource) (q : String) :
    (S.addKeys c k).keysOf q = if c = q then S.keysOf q ++ [k] else S.keysOf q := by
  unfold Server.keysOf Server.addKeys
  simp only [Dict.get?_set]
  split
  · rename_i h; subst h; rfl
  · rfl

theorem truthy_getD {req : Dict Val} {k : String} (h : ((req.get? k).getD .null).truthy = true) : ∃ v, req.get? k = some v ∧ v.truthy = true := by
  cases hk : req.get? k with
  | none => rw [hk] at h; cases h
  | some v => rw [hk] at h; exact ⟨v, rfl, h⟩

theorem falsy_getD {req : Dict Val} {k : String} (h : ¬((req.get? k).getD .null).truthy = true) : ∀ v, req.get? k = some v → v.truthy = false := by
  intro v hv
  rw [hv] at h
  simpa using h

theorem importClientKeys_keys (info : Dict Val) (S : Server) (c : String) :
    ∃ ks, Records info ks ∧ (importClientKeys info S c).keysOf c = S.keysOf c ++ ks ∧ ∀ q, q ≠ c → (importClientKeys info S c).keysOf q = S.keysOf q := by
  unfold importClientKeys
  split
  · rename_i h1
    obtain ⟨v, h2, h3⟩ := truthy_getD h1
    exact ⟨[], .signed v h2 h3, by simp, fun _ _ => rfl⟩
  · rename_i h1
    have n1 := falsy_getD h1
    split
    · rename_i h2
      obtain ⟨v, h3, h4⟩ := truthy_getD h2
      refine ⟨[.url v], .url v n1 h3 h4, ?_, fun q hq => ?_⟩
      · rw [addKeys_keysOf, if_pos rfl, h3]; rfl
      · rw [addKeys_keysOf, if_neg (Ne.symm hq)]
    · rename_i h2
      have n2 := falsy_getD h2
      split
      · rename_i h3
        obtain ⟨v, h4, h5⟩ := truthy_getD h3
        refine ⟨[.jwks v], .jwks v (fun k hk => ?_) h4 h5, ?_, fun q hq => ?_⟩
        · have : k = "signed_jwks_uri" ∨ k = "jwks_uri" := by simpa using hk
          rcases this with rfl | rfl
          · exact n1
          · exact n2
        · rw [addKeys_keysOf, if_pos rfl, h4]; rfl
        · rw [addKeys_keysOf, if_neg (Ne.symm hq)]
      · rename_i h3
        have n3 := falsy_getD h3
        refine ⟨[], .nothing fun k hk => ?_, by simp, fun _ _ => rfl⟩
        have : k = "signed_jwks_uri" ∨ k = "jwks_uri" ∨ k = "jwks" := by simpa [keyClaims] using hk
        rcases this with rfl | rfl | rfl
        · exact n1
        · exact n2
        · exact n3

/-- C154 as far as it holds, exactly: a registration adds the source its metadata names — the address of the keys if there is one, else the keys stated — and the secret, and takes nothing away;
the keys of other clients stay as they are. Missing: keys published signed, and keys from earlier. -/
theorem C154_added_partial (R : RegEnv) (S : Server) (request : Dict Val) (newId setSecret : Bool) (reserved : List String) (client : String) (resp : Dict Val)
    (h : (setup R S request newId setSecret reserved).1 = .ok (client, resp)) :
    ∃ req ks, Considered R request newId req ∧ Records req ks ∧
      (setup R S request newId setSecret reserved).2.keysOf client =
        S.keysOf client ++ ks ++ (if setSecret = true ∧ R.secret client ≠ "" then [.secret (R.secret client)] else []) ∧
      ∀ q, q ≠ client → (setup R S request newId setSecret reserved).2.keysOf q = S.keysOf q := by
  have hr := setup_run R S request newId setSecret reserved
  generalize setup R S request newId setSecret reserved = r at h hr
  cases hr with
  | early e => cases h
  | refused => cases h
  | noResponse => cases h
  | done req0 req cinfo c hv h1 h2 h3 =>
    simp only [Except.ok.injEq, Prod.mk.injEq] at h
    obtain ⟨rfl, -⟩ := h
    obtain ⟨-, h5⟩ := chooseId_idFor h1 h2
    obtain ⟨ks, k1, k2, k3⟩ := importClientKeys_keys req { S with cdb := S.cdb.set c (skeleton R newId setSecret c) } c
    have hs : ∀ q, ({ S with cdb := S.cdb.set c (skeleton R newId setSecret c) } : Server).keysOf q = S.keysOf q := fun _ => rfl
    refine ⟨req, ks, ⟨req0, h1, h5⟩, k1, ?_, fun q hq => ?_⟩
    · simp only
      by_cases hc : setSecret = true ∧ R.secret c ≠ ""
      · rw [if_pos hc, if_pos (by simp [hc])]
        show (Server.addKeys _ c _).keysOf c = _
        rw [addKeys_keysOf, if_pos rfl, k2, hs]
      · rw [if_neg hc, if_neg (by simpa using hc)]
        show (importClientKeys _ _ c).keysOf c = _
        rw [k2, hs, List.append_nil]
    · simp only
      split
      · show (Server.addKeys _ c _).keysOf q = _
        rw [addKeys_keysOf, if_neg (Ne.symm hq), k3 q hq, hs]
      · show (importClientKeys _ _ c).keysOf q = _
        rw [k3 q hq, hs]

/-- C154 for a client that has no keys recorded yet and does not publish its keys signed: recorded are those its metadata names and the secret, no others. -/
theorem C154_first_time_partial (R : RegEnv) (S : Server) (request : Dict Val) (newId setSecret : Bool) (reserved : List String) (client : String) (resp : Dict Val)
    (h : (setup R S request newId setSecret reserved).1 = .ok (client, resp)) (hnew : S.keysOf client = []) :
    ∃ req, Considered R request newId req ∧
      (∀ k ∈ (setup R S request newId setSecret reserved).2.keysOf client, NamedBy req k ∨ (setSecret = true ∧ k = .secret (R.secret client))) ∧
      ((∀ v, req.get? "signed_jwks_uri" = some v → v.truthy = false) → NamesKeys req →
        ∃ k ∈ (setup R S request newId setSecret reserved).2.keysOf client, NamedBy req k) := by
  obtain ⟨req, ks, h1, h2, h3, -⟩ := C154_added_partial R S request newId setSecret reserved client resp h
  rw [hnew, List.nil_append] at h3
  refine ⟨req, h1, fun k hk => ?_, fun hn hk => ?_⟩
  · rw [h3, List.mem_append] at hk
    rcases hk with hk | hk
    · left
      cases h2 with
      | signed => cases hk
      | url v _ hv _ => rw [List.mem_singleton] at hk; subst hk; exact hv
      | jwks v _ hv _ => rw [List.mem_singleton] at hk; subst hk; exact hv
      | nothing => cases hk
    · right
      split at hk
      · rename_i hc
        exact ⟨hc.1, List.mem_singleton.1 hk⟩
      · cases hk
  · cases h2 with
    | signed v hv ht => exact absurd ht (by simp [hn v hv])
    | url v _ hv _ => exact ⟨.url v, by rw [h3]; simp, hv⟩
    | jwks v _ hv _ => exact ⟨.jwks v, by rw [h3]; simp, hv⟩
    | nothing h4 =>
      obtain ⟨k, hk, v, hv, ht⟩ := hk
      exact absurd ht (by simp [h4 k hk v hv])

example : (setup Ex.R Ex.S (("jwks_uri", .str "https://rp/jwks") :: ("jwks", .str "k") :: Ex.request "web" ["https://rp/cb"]) true true []).2.keysOf "c0" =
    [.url (.str "https://rp/jwks"), .secret "secret of c0"] := by decide +kernel

/-! ## C64 and C65 spelled out -/

/-- The type of entity an endpoint takes its clients for. -/
def clientTypeOf : Kind → String → Prop
  | .oauth2, t => t = "oauth_client"
  | .pushed, t => t = "oauth_client"
  | .oidc, t => t = "openid_relying_party"

/-- C65, all endpoints: the metadata an unknown client is registered with is that of a trusted chain for the role it is in: relying party at an OpenID Connect provider, client at an OAuth2 server. Missing: as for
`C65_asked_partial`. -/
theorem C65_role_partial (A : AutoEnv) (kind : Kind) (st : AppState) (cid : String) (provided : List Doc) (c : String)
    (hnew : st.srv.cdb.get? cid = none) (h : (clientAuthentication A kind st cid provided).1 = .ok (some c)) :
    ∃ tc t md S, Trusted A st.fed cid provided tc ∧ clientTypeOf kind t ∧ tc.metadata.get? t = some (.obj md) ∧
      (A.register S (Dict.set md "client_id" (.str cid))).1 = some c ∧ S.cdb = st.srv.cdb := by
  obtain ⟨tc, md, srv, h1, h2, h3, -⟩ := let_in hnew h
  refine ⟨tc, kind.leafType, md, _, h1, ?_, h2, by rw [h3], importClientKeys_cdb _ _ _⟩
  cases kind <;> rfl

example : (clientAuthentication (Ex.auto ["automatic"]) .oauth2 Ex.app "https://leaf" []).1 = .ok (some "https://leaf") := by decide +kernel

/-- C64: a client that has been let in as unknown is known from then on, under the id it came with and under the one it has been given, and both stand for the same client, marked as registered automatically where it is
registered afresh each time. -/
theorem C64_known_afterwards (A : AutoEnv) (kind : Kind) (st : AppState) (cid : String) (provided : List Doc) (c : String)
    (hreg : ∀ S request c S', A.register S request = (some c, S') → (S'.cdb.get? c).isSome = true)
    (hnew : st.srv.cdb.get? cid = none) (h : (clientAuthentication A kind st cid provided).1 = .ok (some c)) :
    ∃ info, (clientAuthentication A kind st cid provided).2.srv.cdb.get? cid = some info ∧
      (clientAuthentication A kind st cid provided).2.srv.cdb.get? c = some info ∧
      (c ≠ cid → info.get? "entity_id" = some (.str cid)) ∧ (kind = .oidc → info.get? "automatic_registered" = some (.bool true)) := by
  obtain ⟨tc, md, srv, -, -, h3, h4⟩ := let_in hnew h
  have h5 := hreg _ _ _ _ h3
  generalize (clientAuthentication A kind st cid provided).2.srv.cdb = cdb at h4 ⊢
  cases hi : srv.cdb.get? c with
  | none => rw [hi] at h5; cases h5
  | some info =>
    unfold alsoKnownAs at h4
    rw [hi] at h4
    split at h4
    · rename_i hk
      simp only at h4
      split at h4
      · rename_i he
        simp only [Prod.mk.injEq, true_and] at h4
        subst h4
        subst he
        exact ⟨_, Dict.get?_set_self _ _ _, Dict.get?_set_self _ _ _, fun h0 => absurd rfl h0, fun _ => Dict.get?_set_self _ _ _⟩
      · rename_i he
        simp only [Prod.mk.injEq, true_and] at h4
        subst h4
        refine ⟨_, Dict.get?_set_self _ _ _, ?_, fun _ => Dict.get?_set_self _ _ _, fun _ => ?_⟩
        · rw [Dict.get?_set_ne _ _ (Ne.symm he), Dict.get?_set_self]
        · rw [Dict.get?_set_ne _ _ (by decide), Dict.get?_set_self]
    · rename_i hk
      split at h4
      · rename_i he
        simp only [Prod.mk.injEq, true_and] at h4
        subst h4
        subst he
        exact ⟨info, hi, hi, fun h0 => absurd rfl h0, fun h0 => absurd h0 hk⟩
      · rename_i he
        simp only [Prod.mk.injEq, true_and] at h4
        subst h4
        refine ⟨_, Dict.get?_set_self _ _ _, ?_, fun _ => Dict.get?_set_self _ _ _, fun h0 => absurd h0 hk⟩
        rw [Dict.get?_set_ne _ _ (Ne.symm he), Dict.get?_set_self]

/-- The registration of the OAuth2 endpoints does keep the client under the id it answers with. -/
theorem setupRegister_keeps {R : RegEnv} (hk : KeepsId R) (newId : Bool) (S : Server) (request : Dict Val) (c : String) (S' : Server)
    (h : setupRegister R newId S request = (some c, S')) : (S'.cdb.get? c).isSome = true := by
  obtain ⟨client, resp, h1, h2, h3⟩ := setupRegister_some h
  have := response_id hk h1 h2
  subst this
  obtain ⟨_, info, -, -, -, h4, -⟩ := setup_done h1
  rw [h3, h4]; rfl

example : (clientAuthentication (Ex.auto ["automatic"] true) .pushed Ex.app "https://leaf" []).1 = .ok (some "c0") ∧ KeepsId Ex.R := ⟨by decide +kernel, fun _ => rfl⟩

end Fed.Registration
