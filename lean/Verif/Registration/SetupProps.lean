import Verif.Registration.Setup
import Verif.Registration.RequestProps
/-
Properties C63, C93 and C94: what a registration leaves behind.
-/
namespace Fed.Registration
open Fed

theorem get?_filterKeys {α} (d : Dict α) (P : String → Bool) (q : String) :
    Dict.get? (d.filter fun p => P p.1) q = if P q then d.get? q else none := by
  induction d with
  | nil => simp
  | cons p d ih =>
    rw [List.filter_cons]
    by_cases hp : P p.1 = true
    · rw [if_pos hp, Dict.get?_cons, Dict.get?_cons, ih]
      by_cases hq : p.1 = q
      · subst hq; simp [hp]
      · simp [hq]
    · rw [if_neg hp, ih, Dict.get?_cons]
      by_cases hq : p.1 = q
      · subst hq; simp [hp]
      · simp [hq]

theorem importClientKeys_cdb (info : Dict Val) (S : Server) (client : String) : (importClientKeys info S client).cdb = S.cdb := by
  unfold importClientKeys Server.addKeys
  split
  · rfl
  · split
    · rfl
    · split <;> rfl

/-- How a registration can go. -/
inductive SetupRun (R : RegEnv) (S : Server) (request : Dict Val) (newId setSecret : Bool) (reserved : List String) :
    Except PyErr (String × Dict Val) × Server → Prop
  | early (e) : SetupRun R S request newId setSecret reserved (.error e, S)
  | refused (req0 req : Dict Val) (client : String) (e) :
      filterRequest R.A R.E (request.filter fun p => decide (p.2 ≠ .str "")) = .ok req0 →
      chooseId R S.cdb newId reserved req0 = .ok (client, req) → clientInfo R req (skeleton R newId setSecret client) = .error e →
      SetupRun R S request newId setSecret reserved (.error e, { S with cdb := S.cdb.set client (skeleton R newId setSecret client) })
  | noResponse (req0 req cinfo : Dict Val) (client : String) :
      filterRequest R.A R.E (request.filter fun p => decide (p.2 ≠ .str "")) = .ok req0 →
      chooseId R S.cdb newId reserved req0 = .ok (client, req) → clientInfo R req (skeleton R newId setSecret client) = .ok cinfo →
      R.fits (R.comb (cinfo.filter fun p => p.1 ∈ R.responseParams)) = false →
      SetupRun R S request newId setSecret reserved
        (.error .valueError, importClientKeys req { S with cdb := S.cdb.set client (skeleton R newId setSecret client) } client)
  | done (req0 req cinfo : Dict Val) (client : String) :
      R.verifyMsg request = true →
      filterRequest R.A R.E (request.filter fun p => decide (p.2 ≠ .str "")) = .ok req0 →
      chooseId R S.cdb newId reserved req0 = .ok (client, req) → clientInfo R req (skeleton R newId setSecret client) = .ok cinfo →
      SetupRun R S request newId setSecret reserved
        (.ok (client, R.comb (cinfo.filter fun p => p.1 ∈ R.responseParams)),
          let S1 := importClientKeys req { S with cdb := S.cdb.set client (skeleton R newId setSecret client) } client
          let S2 := if setSecret && decide (R.secret client ≠ "") then S1.addKeys client (.secret (R.secret client)) else S1
          { S2 with cdb := S2.cdb.set client cinfo })

theorem setup_run (R : RegEnv) (S : Server) (request : Dict Val) (newId setSecret : Bool) (reserved : List String) :
    SetupRun R S request newId setSecret reserved (setup R S request newId setSecret reserved) := by
  unfold setup
  split
  · rename_i hv
    cases h1 : filterRequest R.A R.E (request.filter fun p => decide (p.2 ≠ .str "")) with
    | error e => exact .early e
    | ok req0 =>
      simp only
      cases h2 : chooseId R S.cdb newId reserved req0 with
      | error e => exact .early e
      | ok x =>
        obtain ⟨client, req⟩ := x
        simp only
        cases h3 : clientInfo R req (skeleton R newId setSecret client) with
        | error e => exact .refused req0 req client e h1 h2 h3
        | ok cinfo =>
          simp only
          split
          · exact .done req0 req cinfo client hv h1 h2 h3
          · rename_i hf
            exact .noResponse req0 req cinfo client h1 h2 h3 (by simpa using hf)
  · exact .early _

/-! ## C63 -/

/-- C63 in full: a refused registration leaves the client database as it was. -/
def C63_full : Prop :=
  ∀ (R : RegEnv) (S : Server) (request : Dict Val) (newId setSecret : Bool) (reserved : List String) (e : PyErr),
    (setup R S request newId setSecret reserved).1 = .error e → (setup R S request newId setSecret reserved).2.cdb = S.cdb

/-- At least, no client that was registered before is affected. -/
def C63_existing_full : Prop :=
  ∀ (R : RegEnv) (S : Server) (request : Dict Val) (newId setSecret : Bool) (reserved : List String) (e : PyErr),
    (setup R S request newId setSecret reserved).1 = .error e →
    ∀ c info, S.cdb.get? c = some info → (setup R S request newId setSecret reserved).2.cdb.get? c = some info

namespace Ex
/-- A server that hands out the ids "c0", "c00", … -/
def R : RegEnv where
  U := U
  A := ⟨[], [], []⟩
  E := SetEnum.insertion
  verifyMsg _ := true
  genId reserved := if "c0" ∈ reserved then "c00" else "c0"
  salt := "salt"
  secret c := "secret of " ++ c
  now := 100
  secretExpires := 1000
  verifyUrl _ _ := true
  canSign _ := true
  responseParams := ["client_id", "client_secret", "redirect_uris"]
  fits _ := true
  comb := id
  splitHash u := [u]
/-- A client registered earlier, and its complete registration. -/
def S : Server := { cdb := [("rp", [("client_id", .str "rp"), ("redirect_uris", .arr [.arr [.str "https://rp/cb", .obj []]])])] }
end Ex

/-- C63 does not hold: a new client with a bad redirect URI is left in the database, with a secret. -/
theorem C63_half_made_violation : ¬ C63_full := by
  intro h
  have := h Ex.R Ex.S (Ex.request "web" ["http://rp/cb"]) true true [] .invalidRedirectUri (by decide +kernel)
  exact absurd this (by decide +kernel)

/-- Nor does the weaker claim: if clients name their own id (as in automatic registration), a refused request wipes out the registration under that id. -/
theorem C63_wiped_violation : ¬ C63_existing_full := by
  intro h
  have := h Ex.R Ex.S (("client_id", .str "rp") :: Ex.request "web" ["http://rp/cb"]) false false [] .invalidRedirectUri (by decide +kernel)
    "rp" _ rfl
  exact absurd this (by decide +kernel)

/-- The id a registration is about: a fresh one from the generator or the one in the request. -/
def IdFor (R : RegEnv) (S : Server) (request : Dict Val) (newId : Bool) (reserved : List String) (client : String) : Prop :=
  if newId then client = R.genId (if reserved.isEmpty then S.cdb.keys else reserved)
  else ∃ req, filterRequest R.A R.E (request.filter fun p => decide (p.2 ≠ .str "")) = .ok req ∧ Dict.get? req "client_id" = some (.str client) ∧ client ≠ ""

/-- What the server makes up itself for a client. -/
def serverNames : List String := ["client_id", "client_salt", "client_id_issued_at", "client_secret", "client_secret_expires_at"]

theorem skeleton_keys (R : RegEnv) (n s : Bool) (c : String) : ∀ k ∈ Dict.keys (skeleton R n s c), k ∈ serverNames := by
  intro k hk
  rw [Dict.mem_keys_iff_exists] at hk
  obtain ⟨v, hv⟩ := hk
  apply Classical.byContradiction
  intro hn
  simp only [serverNames, List.mem_cons, List.not_mem_nil, or_false, not_or] at hn
  obtain ⟨n1, n2, n3, n4, n5⟩ := hn
  unfold skeleton at hv
  cases n <;> cases s <;> simp [Dict.get?_cons, Dict.get?_set, Ne.symm n1, Ne.symm n2, Ne.symm n3, Ne.symm n4, Ne.symm n5] at hv <;>
    split at hv <;> simp [Dict.get?_cons, Dict.get?_set, Ne.symm n1, Ne.symm n2, Ne.symm n3, Ne.symm n4, Ne.symm n5] at hv

theorem chooseId_idFor {R : RegEnv} {S : Server} {request req0 req : Dict Val} {newId : Bool} {reserved : List String} {client : String}
    (hf : filterRequest R.A R.E (request.filter fun p => decide (p.2 ≠ .str "")) = .ok req0)
    (h : chooseId R S.cdb newId reserved req0 = .ok (client, req)) : IdFor R S request newId reserved client ∧
      req = if newId then req0.filter fun p => p.1 ≠ "client_id" else req0 := by
  unfold chooseId at h
  unfold IdFor
  cases newId with
  | true =>
    simp only [if_true, Except.ok.injEq, Prod.mk.injEq] at h ⊢
    exact ⟨h.1.symm, h.2.symm⟩
  | false =>
    simp only [Bool.false_eq_true, if_false] at h ⊢
    cases hc : Dict.get? req0 "client_id" with
    | none => rw [hc] at h; simp at h
    | some v =>
      rw [hc] at h
      cases v with
      | str c =>
        simp only at h
        split at h
        · cases h
        · rename_i hne
          simp only [Except.ok.injEq, Prod.mk.injEq] at h
          obtain ⟨rfl, rfl⟩ := h
          exact ⟨⟨_, hf, hc, hne⟩, rfl⟩
      | _ => simp at h

/-- C63 as far as it holds: only the entry of the one client changes, whether or not it is refused; and if it is refused the database is as before or the entry has been replaced
by one with nothing but what the server makes up itself: none of the client's metadata. Missing: that entry itself, see the violations. -/
theorem C63_skeleton_partial (R : RegEnv) (S : Server) (request : Dict Val) (newId setSecret : Bool) (reserved : List String) :
    (setup R S request newId setSecret reserved).2.cdb = S.cdb ∨
    ∃ client, IdFor R S request newId reserved client ∧
      (∀ c, c ≠ client → (setup R S request newId setSecret reserved).2.cdb.get? c = S.cdb.get? c) ∧
      ∀ e, (setup R S request newId setSecret reserved).1 = .error e →
        ∃ info, (setup R S request newId setSecret reserved).2.cdb.get? client = some info ∧ ∀ k ∈ Dict.keys info, k ∈ serverNames := by
  have h := setup_run R S request newId setSecret reserved
  generalize setup R S request newId setSecret reserved = r at h
  cases h with
  | early e => exact .inl rfl
  | refused req0 req client e h1 h2 h3 =>
    refine .inr ⟨client, (chooseId_idFor h1 h2).1, fun c hc => ?_, fun e _ => ⟨_, Dict.get?_set_self _ _ _, skeleton_keys _ _ _ _⟩⟩
    exact Dict.get?_set_ne _ _ (Ne.symm hc)
  | noResponse req0 req cinfo client h1 h2 h3 h4 =>
    refine .inr ⟨client, (chooseId_idFor h1 h2).1, fun c hc => ?_, fun e _ => ⟨skeleton R newId setSecret client, ?_, skeleton_keys _ _ _ _⟩⟩
    · simp only [importClientKeys_cdb]
      exact Dict.get?_set_ne _ _ (Ne.symm hc)
    · simp only [importClientKeys_cdb]
      exact Dict.get?_set_self _ _ _
  | done req0 req cinfo client hv h1 h2 h3 =>
    refine .inr ⟨client, (chooseId_idFor h1 h2).1, fun c hc => ?_, fun e he => by cases he⟩
    simp only
    rw [Dict.get?_set_ne _ _ (Ne.symm hc)]
    split
    · simp only [Server.addKeys, importClientKeys_cdb]
      exact Dict.get?_set_ne _ _ (Ne.symm hc)
    · simp only [importClientKeys_cdb]
      exact Dict.get?_set_ne _ _ (Ne.symm hc)

/-- C63 for clients that get a new id: no client registered before is affected, refused or not, if the generator gives an id that is not taken. Missing: the refused client itself, and
clients that name their id. -/
theorem C63_fresh_partial (R : RegEnv) (S : Server) (request : Dict Val) (setSecret : Bool) (hgen : ∀ taken, R.genId taken ∉ taken) (c : String)
    (info : Dict Val) (hc : S.cdb.get? c = some info) : (setup R S request true setSecret []).2.cdb.get? c = some info := by
  rcases C63_skeleton_partial R S request true setSecret [] with h | ⟨client, h1, h2, -⟩
  · rw [h]; exact hc
  · rw [h2 c, hc]
    rintro rfl
    simp only [IdFor, if_true, List.isEmpty_nil] at h1
    have := hgen S.cdb.keys
    rw [← h1] at this
    exact this ((Dict.mem_keys_iff _ _).2 (by simp [hc]))

example : ∀ reserved, "c00" ∉ reserved → Ex.R.genId reserved ∉ reserved := by
  intro reserved h
  simp only [Ex.R]
  split
  · exact h
  · assumption

/-- C63: a request refused because it is malformed, asks for what the server does not support or names no client id changes nothing at all. -/
theorem C63_early_partial (R : RegEnv) (S : Server) (request : Dict Val) (newId setSecret : Bool) (reserved : List String)
    (h : R.verifyMsg request = false ∨ (∃ e, filterRequest R.A R.E (request.filter fun p => decide (p.2 ≠ .str "")) = .error e) ∨
      (newId = false ∧ ∀ req, filterRequest R.A R.E (request.filter fun p => decide (p.2 ≠ .str "")) = .ok req →
        ∀ c, Dict.get? req "client_id" ≠ some (.str c))) :
    (∃ e, (setup R S request newId setSecret reserved).1 = .error e) ∧ (setup R S request newId setSecret reserved).2 = S := by
  unfold setup
  split
  · rename_i hv
    rcases h with h | ⟨e, h⟩ | ⟨rfl, h⟩
    · rw [h] at hv; cases hv
    · rw [h]; exact ⟨⟨e, rfl⟩, rfl⟩
    · cases hf : filterRequest R.A R.E (request.filter fun p => decide (p.2 ≠ .str "")) with
      | error e => exact ⟨⟨e, rfl⟩, rfl⟩
      | ok req =>
        have : chooseId R S.cdb false reserved req = .error .valueError := by
          unfold chooseId
          rw [if_neg (by decide)]
          cases hc : Dict.get? req "client_id" with
          | none => rfl
          | some v =>
            cases v with
            | str c => exact absurd hc (h req hf c)
            | _ => rfl
        simp only [this]
        exact ⟨⟨_, rfl⟩, trivial⟩
  · exact ⟨⟨_, rfl⟩, rfl⟩

/-! ## C93 -/

/-- C93 in full: what the server keeps of a registered client has the id, salt and secret the server made up. -/
def C93_full : Prop :=
  ∀ (R : RegEnv) (S : Server) (request : Dict Val) (newId : Bool) (reserved : List String) (client : String) (resp : Dict Val),
    (setup R S request newId true reserved).1 = .ok (client, resp) →
    ∃ info, (setup R S request newId true reserved).2.cdb.get? client = some info ∧ info.get? "client_id" = some (.str client) ∧
      info.get? "client_salt" = some (.str R.salt) ∧ info.get? "client_secret" = some (.str (R.secret client))

/-- C93 does not hold: a client may bring its own secret. -/
theorem C93_own_secret_violation : ¬ C93_full := by
  intro h
  obtain ⟨info, h1, -, -, h2⟩ := h Ex.R Ex.S (("client_secret", .str "mine") :: Ex.request "web" ["https://rp/cb"]) true [] "c0"
    [("client_id", .str "c0"), ("client_secret", .str "mine"), ("redirect_uris", .arr [.arr [.str "https://rp/cb", .obj []]])] (by decide +kernel)
  have h3 : (setup Ex.R Ex.S (("client_secret", .str "mine") :: Ex.request "web" ["https://rp/cb"]) true true []).2.cdb.get? "c0" =
    some ([("client_id", .str "c0"), ("client_salt", .str "salt"), ("client_id_issued_at", .int 100), ("client_secret", .str "mine"),
      ("client_secret_expires_at", .int 1000), ("application_type", .str "web"), ("redirect_uris", .arr [.arr [.str "https://rp/cb", .obj []]])]) := by
    decide +kernel
  rw [h3] at h1
  cases h1
  exact absurd h2 (by decide)

/-! ### The steps of the registration -/

theorem copyClaims_get? (ig : List String) (request cinfo : Dict Val) (k : String) :
    (copyClaims ig request cinfo).get? k = if k ∈ ig then cinfo.get? k else (request.get? k).or (cinfo.get? k) := by
  unfold copyClaims
  rw [Dict.get?_update, get?_filterKeys request (fun q => decide (q ∉ ig)) k]
  by_cases h : k ∈ ig <;> simp [h]

theorem postLogout_get? {R : RegEnv} {request cinfo out : Dict Val} (h : postLogout R request cinfo = .ok out) (k : String)
    (hk : k ≠ "post_logout_redirect_uri") : out.get? k = cinfo.get? k := by
  unfold postLogout at h
  cases hr : request.get? "post_logout_redirect_uri" with
  | none => rw [hr] at h; simp only [Except.ok.injEq] at h; rw [h]
  | some v =>
    rw [hr] at h
    simp only at h
    split at h
    · cases v with
      | str u =>
        simp only at h
        cases hp : R.U.parse u with
        | error e => rw [hp] at h; simp at h
        | ok p =>
          rw [hp] at h
          simp only [ok_bind] at h
          split at h
          · cases h
          · cases hs : R.U.split u with
            | error e => rw [hs] at h; simp at h
            | ok x =>
              rw [hs] at h
              simp only [ok_bind, Except.ok.injEq] at h
              rw [← h, Dict.get?_set_ne _ _ (Ne.symm hk)]
      | _ => simp at h
    · simp only [Except.ok.injEq] at h; rw [h]

theorem redirectUris_get? {R : RegEnv} {request cinfo out : Dict Val} (h : redirectUris R request cinfo = .ok out) :
    (∀ k, k ≠ "redirect_uris" → out.get? k = cinfo.get? k) ∧
    (request.get? "redirect_uris" = none → out = cinfo) ∧
    (request.get? "redirect_uris" ≠ none → ∃ rs, verifyRedirectUris R.U request = .ok rs ∧ out.get? "redirect_uris" = some (urisVal rs)) := by
  unfold redirectUris at h
  split at h
  · rename_i hh
    cases hv : verifyRedirectUris R.U request with
    | error e => rw [hv] at h; simp at h
    | ok rs =>
      rw [hv] at h
      simp only [ok_bind, Except.ok.injEq] at h
      subst h
      refine ⟨fun k hk => Dict.get?_set_ne _ _ (Ne.symm hk), fun h0 => ?_, fun _ => ⟨rs, rfl, Dict.get?_set_self _ _ _⟩⟩
      simp [Dict.has, h0] at hh
  · rename_i hh
    simp only [Except.ok.injEq] at h
    subst h
    refine ⟨fun _ _ => rfl, fun _ => rfl, fun h0 => ?_⟩
    exfalso
    apply hh
    simp only [Dict.has]
    cases hx : request.get? "redirect_uris" with
    | none => exact absurd hx h0
    | some v => rfl

theorem requestUris_get? {R : RegEnv} {request cinfo out : Dict Val} (h : requestUris R request cinfo = .ok out) (k : String) (hk : k ≠ "request_uris") :
    out.get? k = cinfo.get? k := by
  unfold requestUris at h
  cases hr : request.get? "request_uris" with
  | none => rw [hr] at h; simp only [Except.ok.injEq] at h; rw [h]
  | some v =>
    rw [hr] at h
    simp only at h
    cases hi : pyIter v with
    | error e => rw [hi] at h; simp at h
    | ok us =>
      rw [hi] at h
      simp only [ok_bind] at h
      cases hl : requestUriLoop R us with
      | error e => rw [hl] at h; simp at h
      | ok rs =>
        rw [hl] at h
        simp only [ok_bind, Except.ok.injEq] at h
        rw [← h, Dict.get?_set_ne _ _ (Ne.symm hk)]

theorem pageUris_get? {R : RegEnv} {request : Dict Val} : ∀ {items : List String} {cinfo out : Dict Val}, "redirect_uris" ∉ items →
    pageUris R request items cinfo = .ok out → ∀ k,
    (k ∉ items ∨ request.get? k = none → out.get? k = cinfo.get? k) ∧
    (k ∈ items → ∀ v, request.get? k = some v → out.get? k = some v ∧ ∃ uris, cinfo.get? "redirect_uris" = some uris ∧ R.verifyUrl v uris = true) := by
  intro items
  induction items with
  | nil =>
    intro cinfo out _ h k
    simp only [pageUris, Except.ok.injEq] at h
    subst h
    exact ⟨fun _ => rfl, fun h => by simp at h⟩
  | cons item items ih =>
    intro cinfo out hno h k
    simp only [List.mem_cons, not_or] at hno
    rw [pageUris] at h
    cases hr : request.get? item with
    | none =>
      rw [hr] at h
      have := ih hno.2 h k
      refine ⟨fun hk => this.1 ?_, fun hk v hv => ?_⟩
      · rcases hk with hk | hk
        · exact .inl fun h0 => hk (by simp [h0])
        · exact .inr hk
      · rcases List.mem_cons.1 hk with rfl | hk
        · rw [hr] at hv; cases hv
        · exact this.2 hk v hv
    | some w =>
      rw [hr] at h
      simp only at h
      cases hu : cinfo.get? "redirect_uris" with
      | none => simp [Dict.get, hu] at h
      | some uris =>
        simp only [Dict.get, hu, ok_bind] at h
        split at h
        · rename_i hv0
          have := ih hno.2 h
          have hru : Dict.get? (cinfo.set item w) "redirect_uris" = some uris := by
            rw [Dict.get?_set_ne _ _ (Ne.symm hno.1)]; exact hu
          refine ⟨fun hk => ?_, fun hk v hv => ?_⟩
          · have hne : item ≠ k := by
              rintro rfl
              rcases hk with hk | hk
              · exact hk (by simp)
              · rw [hr] at hk; cases hk
            rw [(this k).1 (by
              rcases hk with hk | hk
              · exact .inl fun h0 => hk (by simp [h0])
              · exact .inr hk), Dict.get?_set_ne _ _ hne]
          · by_cases hki : k ∈ items
            · obtain ⟨h1, u, h2, h3⟩ := (this k).2 hki v hv
              rw [hru] at h2
              cases h2
              exact ⟨h1, uris, rfl, h3⟩
            · have hik : k = item := by
                rcases List.mem_cons.1 hk with rfl | h0
                · rfl
                · exact absurd h0 hki
              subst hik
              rw [hr] at hv
              cases hv
              exact ⟨by rw [(this k).1 (.inl hki), Dict.get?_set_self], uris, rfl, hv0⟩
        · cases h

theorem del_get? {d e : Dict Val} {i : String} (h : d.del i = .ok e) (k : String) : e.get? k = if i = k then none else d.get? k := by
  unfold Dict.del at h
  split at h
  · simp only [Except.ok.injEq] at h
    rw [← h, Dict.get?_filter_ne]
  · cases h

theorem signingAlgs_get? {R : RegEnv} {request : Dict Val} : ∀ {items : List String} {cinfo out : Dict Val},
    signingAlgs R request items cinfo = .ok out → ∀ k,
    (k ∉ items → out.get? k = cinfo.get? k) ∧ (out.get? k = cinfo.get? k ∨ out.get? k = none) := by
  intro items
  induction items with
  | nil =>
    intro cinfo out h k
    simp only [signingAlgs, Except.ok.injEq] at h
    subst h
    exact ⟨fun _ => rfl, .inl rfl⟩
  | cons item items ih =>
    intro cinfo out h k
    rw [signingAlgs] at h
    have plain : signingAlgs R request items cinfo = .ok out →
        (k ∉ item :: items → out.get? k = cinfo.get? k) ∧ (out.get? k = cinfo.get? k ∨ out.get? k = none) := by
      intro h
      have := ih h k
      exact ⟨fun hk => this.1 fun h0 => hk (by simp [h0]), this.2⟩
    have drop : (cinfo.del item >>= fun c => signingAlgs R request items c) = .ok out →
        (k ∉ item :: items → out.get? k = cinfo.get? k) ∧ (out.get? k = cinfo.get? k ∨ out.get? k = none) := by
      intro h
      cases hd : cinfo.del item with
      | error e => rw [hd] at h; simp at h
      | ok c =>
        rw [hd] at h
        have := ih h k
        rw [del_get? hd k] at this
        refine ⟨fun hk => ?_, ?_⟩
        · rw [this.1 fun h0 => hk (by simp [h0]), if_neg]
          rintro rfl
          exact hk (by simp)
        · by_cases hik : item = k
          · rw [if_pos hik] at this
            rcases this.2 with h | h <;> exact .inr h
          · rw [if_neg hik] at this
            exact this.2
    cases hr : request.get? item with
    | none => rw [hr] at h; exact plain h
    | some v =>
      rw [hr] at h
      simp only at h
      cases hp : R.A.preferred.get item with
      | error e => rw [hp] at h; simp at h
      | ok claim =>
        rw [hp] at h
        simp only [ok_bind] at h
        generalize (R.A.support.get? claim).getD .null = sup at h
        have gen : (pyIn v sup >>= fun b => if b && !R.canSign v then (cinfo.del item >>= fun c => signingAlgs R request items c)
            else signingAlgs R request items cinfo) = .ok out →
            (k ∉ item :: items → out.get? k = cinfo.get? k) ∧ (out.get? k = cinfo.get? k ∨ out.get? k = none) := by
          intro h
          cases hb : pyIn v sup with
          | error e => rw [hb] at h; simp at h
          | ok b =>
            rw [hb] at h
            simp only [ok_bind] at h
            split at h
            · exact drop h
            · exact plain h
        cases sup with
        | null => exact drop h
        | _ => exact gen h

/-- The signing algorithms the server may drop. -/
def algNames : List String := ["id_token_signed_response_alg", "userinfo_signed_response_alg"]

/-- The claims that are checked and recorded in a form of their own, or may be dropped. -/
def special : List String :=
  ["redirect_uris", "policy_uri", "logo_uri", "tos_uri", "post_logout_redirect_uri", "request_uris"] ++ algNames

theorem clientInfo_get? {R : RegEnv} {request cinfo out : Dict Val} (h : clientInfo R request cinfo = .ok out) :
    (∀ k, k ∉ special → out.get? k = (request.get? k).or (cinfo.get? k)) ∧
    (∀ k ∈ algNames, out.get? k = (request.get? k).or (cinfo.get? k) ∨ out.get? k = none) ∧
    (request.get? "redirect_uris" = none → out.get? "redirect_uris" = cinfo.get? "redirect_uris") ∧
    (request.get? "redirect_uris" ≠ none → ∃ rs, verifyRedirectUris R.U request = .ok rs ∧ out.get? "redirect_uris" = some (urisVal rs)) ∧
    (∀ k ∈ ["policy_uri", "logo_uri", "tos_uri"], (request.get? k = none → out.get? k = cinfo.get? k) ∧
      ∀ v, request.get? k = some v → out.get? k = some v ∧ ∃ uris, out.get? "redirect_uris" = some uris ∧ R.verifyUrl v uris = true) := by
  unfold clientInfo at h
  cases h1 : postLogout R request (copyClaims ignored request cinfo) with
  | error e => simp [h1] at h
  | ok c1 =>
    simp only [h1, ok_bind] at h
    cases h2 : redirectUris R request c1 with
    | error e => rw [h2] at h; simp at h
    | ok c2 =>
      rw [h2] at h
      simp only [ok_bind] at h
      cases h3 : requestUris R request c2 with
      | error e => rw [h3] at h; simp at h
      | ok c3 =>
        rw [h3] at h
        simp only [ok_bind] at h
        cases h4 : pageUris R request ["policy_uri", "logo_uri", "tos_uri"] c3 with
        | error e => rw [h4] at h; simp at h
        | ok c4 =>
          rw [h4] at h
          simp only [ok_bind] at h
          have g0 := copyClaims_get? ignored request cinfo
          have g1 := postLogout_get? h1
          have g2 := redirectUris_get? h2
          have g3 := requestUris_get? h3
          have g4 := pageUris_get? (by decide) h4
          have g5 := signingAlgs_get? h
          have hru : out.get? "redirect_uris" = c2.get? "redirect_uris" := by
            rw [(g5 _).1 (by decide), (g4 _).1 (.inl (by decide)), g3 _ (by decide)]
          refine ⟨fun k hk => ?_, fun k hk => ?_, fun hn => ?_, fun hn => ?_, fun k hk => ⟨fun hn => ?_, fun v hv => ?_⟩⟩
          · simp only [special, algNames, List.cons_append, List.nil_append, List.mem_cons, List.not_mem_nil, or_false, not_or] at hk
            obtain ⟨n1, n2, n3, n4, n5, n6, n7, n8⟩ := hk
            rw [(g5 k).1 (by simp [n7, n8]), (g4 k).1 (.inl (by simp [n2, n3, n4])), g3 k n6, g2.1 k n1, g1 k n5, g0 k,
              if_neg (by simp [ignored, n1, n2, n3, n4])]
          · have e : c4.get? k = (request.get? k).or (cinfo.get? k) := by
              have hk' : k = "id_token_signed_response_alg" ∨ k = "userinfo_signed_response_alg" := by simpa [algNames] using hk
              rcases hk' with rfl | rfl <;>
              rw [(g4 _).1 (.inl (by decide)), g3 _ (by decide), g2.1 _ (by decide), g1 _ (by decide), g0 _, if_neg (by decide)]
            rcases (g5 k).2 with h0 | h0
            · left; rw [h0, e]
            · exact .inr h0
          · rw [hru, g2.2.1 hn, g1 _ (by decide), g0, if_pos (by decide)]
          · obtain ⟨rs, h5, h6⟩ := g2.2.2 hn
            exact ⟨rs, h5, by rw [hru]; exact h6⟩
          · have : k = "policy_uri" ∨ k = "logo_uri" ∨ k = "tos_uri" := by simpa using hk
            rcases this with rfl | rfl | rfl <;>
            rw [(g5 _).1 (by decide), (g4 _).1 (.inr hn), g3 _ (by decide), g2.1 _ (by decide), g1 _ (by decide), g0, if_pos (by decide)]
          · obtain ⟨h5, uris, h6, h7⟩ := (g4 k).2 hk v hv
            have hk' : k = "policy_uri" ∨ k = "logo_uri" ∨ k = "tos_uri" := by simpa using hk
            refine ⟨?_, uris, ?_, h7⟩
            · rw [(g5 k).1 (by rcases hk' with rfl | rfl | rfl <;> decide)]; exact h5
            · rw [hru, ← g3 _ (by decide)]; exact h6

/-- The requested metadata as far as the server goes along with it. -/
def Considered (R : RegEnv) (request : Dict Val) (newId : Bool) (req : Dict Val) : Prop :=
  ∃ req0, filterRequest R.A R.E (request.filter fun p => decide (p.2 ≠ .str "")) = .ok req0 ∧
    req = if newId then req0.filter fun p => p.1 ≠ "client_id" else req0

theorem setup_done {R : RegEnv} {S : Server} {request : Dict Val} {newId setSecret : Bool} {reserved : List String} {client : String} {resp : Dict Val}
    (h : (setup R S request newId setSecret reserved).1 = .ok (client, resp)) :
    ∃ req info, Considered R request newId req ∧ IdFor R S request newId reserved client ∧
      clientInfo R req (skeleton R newId setSecret client) = .ok info ∧ (setup R S request newId setSecret reserved).2.cdb.get? client = some info ∧
      resp = R.comb (info.filter fun p => p.1 ∈ R.responseParams) ∧ R.verifyMsg request = true := by
  have hr := setup_run R S request newId setSecret reserved
  generalize setup R S request newId setSecret reserved = r at h hr
  cases hr with
  | early e => cases h
  | refused => cases h
  | noResponse => cases h
  | done req0 req cinfo c hv h1 h2 h3 =>
    simp only [Except.ok.injEq, Prod.mk.injEq] at h
    obtain ⟨rfl, rfl⟩ := h
    obtain ⟨h4, h5⟩ := chooseId_idFor h1 h2
    exact ⟨req, cinfo, ⟨req0, h1, h5⟩, h4, h3, Dict.get?_set_self _ _ _, rfl, hv⟩

theorem skeleton_get? (R : RegEnv) (n s : Bool) (c : String) :
    (skeleton R n s c).get? "client_id" = some (.str c) ∧ (skeleton R n s c).get? "client_salt" = some (.str R.salt) ∧
    (skeleton R n s c).get? "client_secret" = if s then some (.str (R.secret c)) else none := by
  unfold skeleton
  cases n <;> cases s <;> simp [Dict.get?, Dict.set] <;> split <;> simp [Dict.get?, Dict.set]

/-- C93 as far as it holds: the id is always the server's (or, for clients that name their id, that one); salt and secret are the server's if the request does not name any. Missing:
requests that do, see `C93_own_secret_violation`. -/
theorem C93_made_up_partial (R : RegEnv) (S : Server) (request : Dict Val) (newId : Bool) (reserved : List String) (client : String) (resp : Dict Val)
    (h : (setup R S request newId true reserved).1 = .ok (client, resp)) :
    ∃ req info, Considered R request newId req ∧ (setup R S request newId true reserved).2.cdb.get? client = some info ∧
      info.get? "client_id" = some (.str client) ∧ (req.get? "client_salt" = none → info.get? "client_salt" = some (.str R.salt)) ∧
      (req.get? "client_secret" = none → info.get? "client_secret" = some (.str (R.secret client))) := by
  obtain ⟨req, info, ⟨req0, h1, h2⟩, hid, h3, h4, -⟩ := setup_done h
  obtain ⟨s1, s2, s3⟩ := skeleton_get? R newId true client
  have g := (clientInfo_get? h3).1
  refine ⟨req, info, ⟨req0, h1, h2⟩, h4, ?_, fun hn => ?_, fun hn => ?_⟩
  · rw [g _ (by decide), s1]
    cases newId with
    | true =>
      have : req.get? "client_id" = none := by
        rw [h2, if_pos rfl, Dict.get?_filter_ne, if_pos rfl]
      rw [this]; rfl
    | false =>
      obtain ⟨req', h5, h6, -⟩ := hid
      rw [h1] at h5
      cases h5
      rw [h2, if_neg (by decide), h6]; rfl
  · rw [g _ (by decide), hn, s2]; rfl
  · rw [g _ (by decide), hn, s3]; rfl

example : (setup Ex.R Ex.S (Ex.request "web" ["https://rp/cb"]) true true []).1 =
    .ok ("c0", [("client_id", .str "c0"), ("client_secret", .str "secret of c0"), ("redirect_uris", .arr [.arr [.str "https://rp/cb", .obj []]])]) := by
  decide +kernel

/-! ## C94 -/

/-- C94: of a registered client is kept, for each claim: what it asked for as far as the server goes along with it, unless the claim is one of those with a check of their own. Of
these: the redirect URIs are the verified ones (see C61), the pages for the user are as asked for and passed the check against the redirect URIs, and the signing
algorithms are as asked for or dropped. What is kept and was not asked for, the server made up. -/
theorem C94_kept (R : RegEnv) (S : Server) (request : Dict Val) (newId setSecret : Bool) (reserved : List String) (client : String) (resp : Dict Val)
    (h : (setup R S request newId setSecret reserved).1 = .ok (client, resp)) :
    ∃ req info, Considered R request newId req ∧ (setup R S request newId setSecret reserved).2.cdb.get? client = some info ∧
      (∀ k, k ∉ special → info.get? k = req.get? k ∨ (req.get? k = none ∧ k ∈ serverNames)) ∧
      (∀ k ∈ algNames, info.get? k = req.get? k ∨ info.get? k = none) ∧
      (match req.get? "redirect_uris" with
        | none => info.get? "redirect_uris" = none
        | some _ => ∃ rs, verifyRedirectUris R.U req = .ok rs ∧ info.get? "redirect_uris" = some (urisVal rs)) ∧
      (∀ k ∈ ["policy_uri", "logo_uri", "tos_uri"], info.get? k = req.get? k ∧
        ∀ v, info.get? k = some v → ∃ uris, info.get? "redirect_uris" = some uris ∧ R.verifyUrl v uris = true) := by
  obtain ⟨req, info, h1, hid, h3, h4, -⟩ := setup_done h
  obtain ⟨g1, g2, g3, g4, g5⟩ := clientInfo_get? h3
  have none_of : ∀ k, k ∉ serverNames → (skeleton R newId setSecret client).get? k = none := by
    intro k hk
    rw [Dict.get?_eq_none_iff]
    exact fun h0 => hk (skeleton_keys _ _ _ _ k h0)
  refine ⟨req, info, h1, h4, fun k hk => ?_, fun k hk => ?_, ?_, fun k hk => ?_⟩
  · rw [g1 k hk]
    cases hr : req.get? k with
    | some v => exact .inl rfl
    | none =>
      by_cases hs : k ∈ serverNames
      · exact .inr ⟨rfl, hs⟩
      · left; rw [none_of k hs]; rfl
  · rcases g2 k hk with h0 | h0
    · have hs : k ∉ serverNames := by
        have hk' : k = "id_token_signed_response_alg" ∨ k = "userinfo_signed_response_alg" := by simpa [algNames] using hk
        rcases hk' with rfl | rfl <;> decide
      left
      rw [h0, none_of k hs]
      cases req.get? k <;> rfl
    · exact .inr h0
  · cases hr : req.get? "redirect_uris" with
    | none => simp only; rw [g3 hr, none_of _ (by decide)]
    | some v => exact g4 (by simp [hr])
  · have hs : k ∉ serverNames := by
      have hk' : k = "policy_uri" ∨ k = "logo_uri" ∨ k = "tos_uri" := by simpa using hk
      rcases hk' with rfl | rfl | rfl <;> decide
    obtain ⟨h5, h6⟩ := g5 k hk
    cases hr : req.get? k with
    | none =>
      rw [h5 hr, none_of k hs]
      exact ⟨rfl, fun v hv => by cases hv⟩
    | some v =>
      obtain ⟨h7, h8⟩ := h6 v hr
      rw [h7]
      exact ⟨rfl, fun v' hv' => by cases hv'; exact h8⟩

example : (setup Ex.R Ex.S (("logo_uri", .str "https://rp/logo") :: Ex.request "web" ["https://rp/cb"]) true true []).1 =
    .ok ("c0", [("client_id", .str "c0"), ("client_secret", .str "secret of c0"), ("redirect_uris", .arr [.arr [.str "https://rp/cb", .obj []]])]) := by
  decide +kernel

end Fed.Registration
