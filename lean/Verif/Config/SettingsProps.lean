import Verif.Config.Settings
import Verif.Server.RolesProps
import Verif.Chains.Props
/-
Properties C157, C158: what becomes of the settings of a federation entity.
-/
namespace Fed.Config.Settings
open Fed Fed.Server Fed.Server.Context

/-! ## C157: what an entity is configured to say about trust marks is published -/

/-- A claim in the metadata as a federation entity of a configuration. -/
def Claims (p : Dict Val) (k : String) (v : Val) : Prop :=
  ∃ md fe, p.get? "metadata" = some (.obj md) ∧ Dict.get? md "federation_entity" = some (.obj fe) ∧ Dict.get? fe k = some v

/-- C157 in full: the issuers and owners of trust marks an entity is made with are in the configuration it publishes, for others to decide which marks to accept. -/
def C157_full : Prop := ∀ (files : Dict Val) (s : Spec) (e : Entity) (now : Int) (endpoints p : Dict Val),
  makeCombo files s = .ok e → publish files e now endpoints s.parts = .ok p →
  (s.markIssuers.truthy = true → Claims p "trust_mark_issuers" s.markIssuers) ∧ (s.markOwner.truthy = true → Claims p "trust_mark_owners" s.markOwner)

theorem get?_preferred (d : Dict Val) (k : String) (h : k ∈ claims) : (preferred d).get? k = d.get? k := by
  unfold preferred
  rw [get?_filter_key d (fun q => decide (q ∈ claims)) k]
  simp [h]

theorem makeEntity_ok {files : Dict Val} {entityId : String} {ownKeys : Val} {settings : Given} {preference : Dict Val} {e : Entity}
    (h : makeEntity files entityId ownKeys settings preference = .ok e) :
    e = ⟨⟨{ entityId := entityId, ownKeys := ownKeys, hints := orElse settings.hints .nothing (.value (.arr [])) }, []⟩, preference, []⟩ := by
  unfold makeEntity initContext at h
  simp only [Option.getD_none] at h
  have hr : orElse .nothing .nothing (.value (.obj [])) = .value (.obj []) := rfl
  have hm : orElse .nothing .nothing (.value (.arr [])) = .value (.arr []) := rfl
  simp only [hr, hm, getRoots, ok_bind, rootKeys] at h
  cases h
  simp [sorted, Dict.keys]

theorem makeCombo_ok {files : Dict Val} {s : Spec} {e : Entity} (h : makeCombo files s = .ok e) :
    e.prefer = s.preference ∧ e.made.ctx.entityId = s.entityId ∧ e.made.ctx.ownKeys = s.ownKeys ∧ e.made.ctx.hints = orElse s.hints .nothing (.value (.arr [])) ∧
      e.made.ctx.marks = (if s.marks.given then s.marks else .value (.arr [])) := by
  unfold makeCombo at h
  cases hm : makeEntity files s.entityId s.ownKeys { hints := s.hints } s.preference with
  | error e => rw [hm] at h; cases h
  | ok e' =>
    rw [hm] at h
    have := makeEntity_ok hm
    subst this
    cases h
    by_cases hg : s.marks.given = true
    · simp [hg]
    · simp [hg]

/-- What is given as issuers and as owner of trust marks is kept with the entity, unless it is empty, and nothing else is; as C157 shows it goes no further. -/
theorem C157_kept (files : Dict Val) (s : Spec) (e : Entity) (h : makeCombo files s = .ok e) :
    e.attributes.get? "trust_mark_issuers" = (if s.markIssuers.truthy then some s.markIssuers else none) ∧
    e.attributes.get? "trust_mark_owner" = (if s.markOwner.truthy then some s.markOwner else none) ∧
    ∀ k, k ≠ "trust_mark_issuers" → k ≠ "trust_mark_owner" → e.attributes.get? k = none := by
  unfold makeCombo at h
  cases hm : makeEntity files s.entityId s.ownKeys { hints := s.hints } s.preference with
  | error e => rw [hm] at h; cases h
  | ok e' =>
    rw [hm] at h
    have ha : e'.attributes = [] := by
      unfold makeEntity at hm
      split at hm
      · cases hm
      · cases hm; rfl
    cases h
    simp only [putAttr, ha]
    by_cases h1 : s.markIssuers.truthy = true
    · by_cases h2 : s.markOwner.truthy = true
      · simp only [h1, h2, if_true, Dict.get?_set]
        refine ⟨if_neg (by decide), trivial, fun k hk hk' => ?_⟩
        rw [if_neg (Ne.symm hk'), if_neg (Ne.symm hk)]; rfl
      · simp only [h1, h2, if_true, Dict.get?_set]
        refine ⟨rfl, rfl, fun k hk hk' => ?_⟩
        simp only [Bool.false_eq_true, if_false]
        rw [Dict.get?_set, if_neg (Ne.symm hk)]; rfl
    · by_cases h2 : s.markOwner.truthy = true
      · simp only [h1, h2, if_true]
        refine ⟨rfl, rfl, fun k hk hk' => ?_⟩
        simp only [Bool.false_eq_true, if_false]
        rw [Dict.get?_set, if_neg (Ne.symm hk')]; rfl
      · simp only [h1, h2]
        exact ⟨rfl, rfl, fun k _ _ => rfl⟩

/-- The parts of the entity besides the federation entity are as they should be. -/
def RegularWith (parts : Dict Roles.Part) : Prop := ∀ md, Roles.Regular (("federation_entity", Roles.Part.federation md) :: parts)

/-- C157 as far as it holds: what the preferences say is published. Missing, and false: what is given as `trust_mark_issuers` and `trust_mark_owner`. -/
theorem C157_preference_partial (files : Dict Val) (s : Spec) (e : Entity) (now : Int) (endpoints p : Dict Val) (hr : RegularWith s.parts)
    (hm : makeCombo files s = .ok e) (h : publish files e now endpoints s.parts = .ok p) (k : String)
    (hk : k ∈ ["organization_name", "contacts", "homepage_uri", "trust_mark_owners", "trust_mark_issuers"]) (hn : endpoints.get? k = none) (v : Val)
    (hv : s.preference.get? k = some v) : Claims p k v := by
  obtain ⟨h1, -⟩ := makeCombo_ok hm
  obtain ⟨md, w, h2, h3, h4⟩ := Roles.C156_published_partial files _ now _ [] p (hr (ownMetadata e endpoints)) h "federation_entity" (.federation (ownMetadata e endpoints)) (by simp) trivial nofun
  cases h4
  refine ⟨md, _, h2, h3, ?_⟩
  unfold ownMetadata
  rw [Dict.get?_update, hn, get?_preferred _ _ hk, h1, hv]
  rfl

/-- And what is not among the preferences, or an endpoint, is not published as a claim of the federation entity. -/
theorem C157_only_partial (files : Dict Val) (s : Spec) (e : Entity) (now : Int) (endpoints p : Dict Val) (hr : RegularWith s.parts)
    (hm : makeCombo files s = .ok e) (h : publish files e now endpoints s.parts = .ok p) (k : String) (v : Val) (hc : Claims p k v) :
    endpoints.get? k = some v ∨ (k ∈ ["organization_name", "contacts", "homepage_uri", "trust_mark_owners", "trust_mark_issuers"] ∧ s.preference.get? k = some v) := by
  obtain ⟨h1, -⟩ := makeCombo_ok hm
  obtain ⟨md, fe, c1, c2, c3⟩ := hc
  obtain ⟨md', w, h2, h3, h4⟩ := Roles.C156_published_partial files _ now _ [] p (hr (ownMetadata e endpoints)) h "federation_entity" (.federation (ownMetadata e endpoints)) (by simp) trivial nofun
  cases h4
  rw [h2] at c1; cases c1
  rw [h3] at c2; cases c2
  rw [ownMetadata, Dict.get?_update, preferred, get?_filter_key e.prefer (fun q => decide (q ∈ claims)) k, h1] at c3
  cases he : endpoints.get? k with
  | some x => rw [he] at c3; exact Or.inl c3
  | none =>
    rw [he] at c3
    by_cases hk : k ∈ claims
    · exact Or.inr ⟨hk, by simpa [hk] using c3⟩
    · simp [hk] at c3

/-- The authority hints and trust marks an entity is made with are published, unless the trust marks are in a file. -/
theorem C157_marks_partial (files : Dict Val) (s : Spec) (e : Entity) (now : Int) (endpoints p : Dict Val) (hm : makeCombo files s = .ok e)
    (h : publish files e now endpoints s.parts = .ok p) :
    (∀ v, s.marks = .value v ∨ s.marks = .call v → v.truthy = true → p.get? "trust_marks" = some v) ∧ (s.marks.given = false → p.get? "trust_marks" = none) ∧
    (∀ v, s.hints = .value v ∨ s.hints = .call v ∨ (∃ n, n ≠ "" ∧ s.hints = .file n ∧ files.get? n = some v) → v.truthy = true → p.get? "authority_hints" = some v) ∧
    p.get? "iss" = some (.str s.entityId) ∧ p.get? "sub" = some (.str s.entityId) ∧ p.get? "jwks" = some s.ownKeys := by
  obtain ⟨-, h1, h2, h3, h4⟩ := makeCombo_ok hm
  unfold publish at h
  replace h := Roles.configuration_combo h
  cases hg : getHints files e.made.ctx with
  | error x => unfold Context.configuration at h; rw [hg] at h; cases h
  | ok hints =>
    obtain ⟨p', c0, c1, c2, c3, -, -, c6, c7⟩ := configuration_ok files e.made.ctx now _ hints hg
    rw [h] at c0; cases c0
    refine ⟨?_, ?_, ?_, by rw [c1, h1], by rw [c2, h1], by rw [c3, h2]⟩
    · intro v hv ht
      rw [c7]
      rcases hv with hv | hv
      · rw [hv] at h4; simp only [Source.given, ht, if_true] at h4; simp [endpointMarks, h4, Source.given, ht, Dict.get?]
      · rw [hv] at h4; simp only [Source.given, if_true] at h4; simp [endpointMarks, h4, Source.given, Dict.get?]
    · intro hv
      rw [c7, endpointMarks, h4, hv]
      rfl
    · intro v hv ht
      have : hints = v := by
        rw [getHints, h3] at hg
        rcases hv with hv | hv | ⟨n, hn, hv, hf⟩
        · rw [hv] at hg; simp only [orElse, Source.given, ht, if_true] at hg; cases hg; rfl
        · rw [hv] at hg; simp only [orElse, Source.given, if_true] at hg; cases hg; rfl
        · rw [hv] at hg
          have : (n != "") = true := by simpa using hn
          simp only [orElse, Source.given, this, if_true, readFile, hf] at hg
          cases hg; rfl
      rw [c6, this]; simp [Option.filter, ht]

namespace Ex
/-- A trust anchor that allows `https://tmi` to issue marks. -/
def ta : Spec where
  entityId := "https://ta"
  ownKeys := .str "k"
  preference := [("organization_name", .str "TA")]
  marks := .value (.arr [.str "eyJ"])
  markIssuers := .obj [("https://refeds.org/sirtfi", .arr [.str "https://tmi"])]
  markOwner := .obj [("https://refeds.org/sirtfi", .obj [])]
def endpoints : Dict Val := [("federation_fetch_endpoint", .str "https://ta/fetch")]
def asPreference : Spec := { ta with preference := [("trust_mark_issuers", ta.markIssuers)] }
def entity (s : Spec) : Entity := match makeCombo [] s with | .ok e => e | .error _ => ⟨⟨⟨"", .null, .nothing, .nothing, .nothing, 0⟩, []⟩, [], []⟩
def payload (s : Spec) : Dict Val := match publish [] (entity s) 0 endpoints s.parts with | .ok p => p | .error _ => []
end Ex

/-- Among the preferences they are published. -/
example : RegularWith Ex.asPreference.parts ∧ makeCombo [] Ex.asPreference = .ok (Ex.entity Ex.asPreference) ∧
    publish [] (Ex.entity Ex.asPreference) 0 Ex.endpoints [] = .ok (Ex.payload Ex.asPreference) ∧
    (Ex.payload Ex.asPreference).get? "metadata" = some (.obj [("federation_entity", .obj [("trust_mark_issuers", Ex.ta.markIssuers), ("federation_fetch_endpoint", .str "https://ta/fetch")])]) := by
  refine ⟨fun md => ⟨by simp [Ex.asPreference, Ex.ta], by simp [Ex.asPreference, Ex.ta], by intro t c h; simp [Ex.asPreference, Ex.ta] at h⟩, rfl, ?_, ?_⟩ <;> decide +kernel

theorem Ex.published : (Ex.payload Ex.ta).get? "metadata" = some (.obj [("federation_entity", .obj [("organization_name", .str "TA"), ("federation_fetch_endpoint", .str "https://ta/fetch")])]) := by
  decide +kernel

theorem Ex.unsaid (k : String) (v : Val) (hk : k ≠ "organization_name") (hk' : k ≠ "federation_fetch_endpoint") : ¬ Claims (Ex.payload Ex.ta) k v := by
  rintro ⟨md, fe, h1, h2, h3⟩
  rw [Ex.published] at h1; cases h1
  simp only [Dict.get?, if_true, Option.some.injEq, Val.obj.injEq] at h2
  subst h2
  simp [Dict.get?, Ne.symm hk, Ne.symm hk'] at h3

/-- C157 does not hold: issuers of trust marks given as such are not published. -/
theorem C157_issuers_violation : ¬ C157_full := by
  intro h
  exact Ex.unsaid _ _ (by decide) (by decide) ((h [] Ex.ta (Ex.entity Ex.ta) 0 Ex.endpoints (Ex.payload Ex.ta) rfl (by decide +kernel)).1 rfl)

/-- Nor are owners of trust marks. -/
theorem C157_owners_violation : ¬ ∀ (files : Dict Val) (s : Spec) (e : Entity) (now : Int) (endpoints p : Dict Val),
    makeCombo files s = .ok e → publish files e now endpoints s.parts = .ok p → s.markOwner.truthy = true → Claims p "trust_mark_owners" s.markOwner := by
  intro h
  exact Ex.unsaid _ _ (by decide) (by decide) (h [] Ex.ta (Ex.entity Ex.ta) 0 Ex.endpoints (Ex.payload Ex.ta) rfl (by decide +kernel) rfl)

/-! ## C158: the settings of an entity have their effect -/

/-- C158 in full: an entity made with an order among trust anchors picks chains by it, one made with a default lifetime makes statements that live that long, and one made with trust marks has them in the
statements it makes. -/
def C158_full : Prop := ∀ (files : Dict Val) (entityId : String) (ownKeys : Val) (settings : Given) (preference : Dict Val) (e : Entity),
  makeEntity files entityId ownKeys settings preference = .ok e →
  (∀ p tcs, settings.priority = some p → Chains.pickTrustChain e.made.priority tcs = Chains.pickTrustChain p tcs) ∧
  (∀ now sub p, settings.lifetime ≠ 0 → ctxStatement files e.made.ctx now entityId sub [] = .ok p → p.get? "exp" = some (.int (now + settings.lifetime))) ∧
  (∀ now sub p v, settings.marks = .value v → v.truthy = true → ctxStatement files e.made.ctx now entityId sub [] = .ok p → p.get? "trust_marks" = some v)

/-- C158, chains: whatever order there is among the settings, the first chain is picked. -/
theorem C158_first_partial (files : Dict Val) (entityId : String) (ownKeys : Val) (settings : Given) (preference : Dict Val) (e : Entity)
    (h : makeEntity files entityId ownKeys settings preference = .ok e) (tc : Verify.TrustChain) (tcs : List Verify.TrustChain) :
    Chains.pickTrustChain e.made.priority (tc :: tcs) = .ok tc := by
  rw [makeEntity_ok h]
  cases tcs <;> rfl

/-- C158, statements: whatever default lifetime is among the settings, statements made without one live for a day; and they have the authority hints that are among the settings, if they are given as a
list, but no trust marks. (Authority hints from a function that has none are left out.) -/
theorem C158_day_partial (files : Dict Val) (entityId : String) (ownKeys : Val) (settings : Given) (preference : Dict Val) (e : Entity)
    (h : makeEntity files entityId ownKeys settings preference = .ok e) (now : Int) (sub : String) (p : Dict Val) (hp : ctxStatement files e.made.ctx now entityId sub [] = .ok p)
    (hc : ∀ v, settings.hints = .call v → v.truthy = true) :
    p.get? "exp" = some (.int (now + 86400)) ∧ p.get? "jwks" = some ownKeys ∧ p.get? "trust_marks" = none ∧
      ∀ v, settings.hints = .value v → v.truthy = true → p.get? "authority_hints" = some v := by
  have he := makeEntity_ok h
  subst he
  have base := ctxStatement_says hp
  cases hh : settings.hints with
  | value v =>
    by_cases ht : v.truthy = true
    · have hs := base v (.arr []) (fun _ => rfl) (fun _ => by simp [orElse, hh, Source.given, ht, rawHints])
      refine ⟨hs.lifetimeDefault rfl (by simp), hs.keys rfl, hs.marksOwn rfl, ?_⟩
      rintro w hw hwt
      cases hw
      rw [hs.hintsOwn rfl]; simp [Option.filter, hwt]
    · have hs := base (.arr []) (.arr []) (fun _ => rfl) (fun _ => by simp [orElse, hh, Source.given, ht, rawHints])
      refine ⟨hs.lifetimeDefault rfl (by simp), hs.keys rfl, hs.marksOwn rfl, ?_⟩
      rintro w hw hwt
      cases hw
      exact absurd hwt ht
  | nothing =>
    have hs := base (.arr []) (.arr []) (fun _ => rfl) (fun _ => by simp [orElse, hh, Source.given, rawHints])
    exact ⟨hs.lifetimeDefault rfl (by simp), hs.keys rfl, hs.marksOwn rfl, nofun⟩
  | file n =>
    by_cases hn : n = ""
    · have hs := base (.arr []) (.arr []) (fun _ => rfl) (fun _ => by simp [orElse, hh, Source.given, hn, rawHints])
      exact ⟨hs.lifetimeDefault rfl (by simp), hs.keys rfl, hs.marksOwn rfl, nofun⟩
    · have hs := base (.str n) (.arr []) (fun _ => rfl) (fun _ => by simp [orElse, hh, Source.given, hn, rawHints])
      exact ⟨hs.lifetimeDefault rfl (by simp), hs.keys rfl, hs.marksOwn rfl, nofun⟩
  | call v =>
    have hs := base v (.arr []) (fun _ => rfl) (fun _ => by simp [orElse, hh, Source.given, rawHints, Option.filter, hc v hh])
    exact ⟨hs.lifetimeDefault rfl (by simp), hs.keys rfl, hs.marksOwn rfl, nofun⟩

namespace Ex
/-- Settings that have no effect, and authority hints. -/
def settings : Given := { lifetime := 60, priority := some ["https://ta2"], marks := .value (.arr [.str "eyJ"]), roots := .value (.obj [("https://ta2", .null)]), hints := .value (.arr [.str "https://ta"]) }
def made : Entity := match makeEntity [] "https://x" (.str "k") settings [] with | .ok e => e | .error _ => ⟨⟨⟨"", .null, .nothing, .nothing, .nothing, 0⟩, []⟩, [], []⟩
def said : Dict Val := match ctxStatement [] made.made.ctx 0 "https://x" "https://y" [] with | .ok p => p | .error _ => []
def chain (ta : String) : Verify.TrustChain := { Chains.Ex.leafChain with anchor := ta }
end Ex

example : makeEntity [] "https://x" (.str "k") Ex.settings [] = .ok Ex.made ∧ ctxStatement [] Ex.made.made.ctx 0 "https://x" "https://y" [] = .ok Ex.said ∧
    Ex.said.get? "authority_hints" = some (.arr [.str "https://ta"]) := ⟨rfl, by decide +kernel, by decide +kernel⟩

/-- C158 does not hold for the order among trust anchors. -/
theorem C158_priority_violation : ¬ C158_full := by
  intro h
  have := (h [] "https://x" (.str "k") Ex.settings [] Ex.made rfl).1 ["https://ta2"] [Ex.chain "https://ta", Ex.chain "https://ta2"] rfl
  revert this
  decide +kernel

/-- Nor for the default lifetime. -/
theorem C158_lifetime_violation : ¬ ∀ (files : Dict Val) (entityId : String) (ownKeys : Val) (settings : Given) (preference : Dict Val) (e : Entity) (now : Int) (sub : String) (p : Dict Val),
    makeEntity files entityId ownKeys settings preference = .ok e → settings.lifetime ≠ 0 → ctxStatement files e.made.ctx now entityId sub [] = .ok p →
    p.get? "exp" = some (.int (now + settings.lifetime)) := by
  intro h
  have := h [] "https://x" (.str "k") Ex.settings [] Ex.made 0 "https://y" Ex.said rfl (by decide) (by decide +kernel)
  revert this
  decide +kernel

/-- Nor for trust marks. -/
theorem C158_marks_violation : ¬ ∀ (files : Dict Val) (entityId : String) (ownKeys : Val) (settings : Given) (preference : Dict Val) (e : Entity) (now : Int) (sub : String) (p : Dict Val) (v : Val),
    makeEntity files entityId ownKeys settings preference = .ok e → settings.marks = .value v → v.truthy = true → ctxStatement files e.made.ctx now entityId sub [] = .ok p →
    p.get? "trust_marks" = some v := by
  intro h
  have := h [] "https://x" (.str "k") Ex.settings [] Ex.made 0 "https://y" Ex.said (.arr [.str "eyJ"]) rfl rfl rfl (by decide +kernel)
  revert this
  decide +kernel

theorem mem_insertIn (x y : String) : ∀ xs, y ∈ insertIn x xs ↔ y = x ∨ y ∈ xs
  | [] => by simp [insertIn]
  | z :: zs => by
      rw [insertIn]
      split
      · rename_i h; subst h; simp
      · split
        · simp
        · simp only [List.mem_cons, mem_insertIn x y zs]
          constructor
          · rintro (h | h | h)
            · exact Or.inr (Or.inl h)
            · exact Or.inl h
            · exact Or.inr (Or.inr h)
          · rintro (h | h | h)
            · exact Or.inr (Or.inl h)
            · exact Or.inl h
            · exact Or.inr (Or.inr h)

theorem mem_sorted (y : String) : ∀ xs, y ∈ sorted xs ↔ y ∈ xs
  | [] => by simp [sorted]
  | x :: xs => by
      have : sorted (x :: xs) = insertIn x (sorted xs) := rfl
      rw [this, mem_insertIn, mem_sorted y xs, List.mem_cons]

/-- C158 for the client part of an entity: the order is the one given as an argument, else the one in its configuration, else one of its trusted roots; trust marks are those given as an argument, else those in
its configuration; trusted roots are from the configuration only; and the lifetime is a day, whatever the configuration says. -/
theorem C158_client_partial (files : Dict Val) (entityId : String) (ownKeys : Val) (arg config : Given) (m : Made) (h : makeClient files entityId ownKeys arg config = .ok m) :
    (∀ p, arg.priority = some p → m.priority = p) ∧ (∀ p, arg.priority = none → config.priority = some p → m.priority = p) ∧
    (∀ d, arg.priority = none → config.priority = none → config.roots = .value (.obj d) → ∀ x, x ∈ m.priority ↔ x ∈ Dict.keys d) ∧
    (∀ v, arg.marks = .value v → v.truthy = true → m.ctx.marks = .value v) ∧ (arg.marks = .nothing → config.marks ≠ .nothing → m.ctx.marks = config.marks) ∧
    (∀ d, config.roots = .value (.obj d) → m.ctx.roots = .value (.obj d)) ∧ m.ctx.defaultLifetime = 86400 := by
  unfold makeClient at h
  cases hi : initContext files entityId ownKeys { lifetime := 86400, marks := arg.marks } config arg.priority with
  | error e => rw [hi] at h; cases h
  | ok m' =>
    rw [hi] at h
    simp only at h
    split at h
    · cases h
      unfold initContext at hi
      simp only at hi
      split at hi
      · cases hi
      · rename_i p hp
        cases hi
        refine ⟨?_, ?_, ?_, ?_, ?_, ?_, rfl⟩
        · intro q hq; simp [hq]
        · intro q hq hc
          rw [hc] at hp
          simp only at hp
          cases hp
          simp [hq]
        · intro d hq hc hd x
          rw [hc] at hp
          simp only [getRoots, orElse, Source.given, hd] at hp
          simp only [Bool.false_eq_true, if_false, ok_bind, rootKeys, reduceCtorEq] at hp
          cases hp
          simp [hq, mem_sorted]
        · intro v hv ht; simp [orElse, hv, Source.given, ht]
        · intro hv hc; simp [orElse, hv, Source.given, hc]
        · intro d hd; simp [orElse, Source.given, hd]
    · cases h

theorem sorted_insertIn (x : String) : ∀ xs : List String, xs.Pairwise (· < ·) → (insertIn x xs).Pairwise (· < ·)
  | [], _ => by simp [insertIn]
  | y :: ys, h => by
    rw [List.pairwise_cons] at h
    rw [insertIn]
    split
    · exact List.pairwise_cons.2 h
    · rename_i hne
      split
      · rename_i hlt
        refine List.pairwise_cons.2 ⟨?_, List.pairwise_cons.2 h⟩
        intro z hz
        rcases List.mem_cons.1 hz with rfl | hz
        · exact hlt
        · exact String.lt_trans hlt (h.1 z hz)
      · rename_i hge
        refine List.pairwise_cons.2 ⟨?_, sorted_insertIn x ys h.2⟩
        intro z hz
        rcases (mem_insertIn x z ys).1 hz with rfl | hz
        · exact Classical.byContradiction fun hn => hne (String.le_antisymm hn hge)
        · exact h.1 z hz

theorem sorted_sorted : ∀ xs : List String, (sorted xs).Pairwise (· < ·)
  | [] => List.Pairwise.nil
  | x :: xs => sorted_insertIn x (sorted xs) (sorted_sorted xs)

/-- C158 for a context that is made by itself: the lifetime is the one given, unless it is 0, else the one in its configuration; the order is the one among the further arguments, else the one given, unless it is
empty, else the one in its configuration, else its trusted roots in alphabetic order, each once; the trust marks and trusted roots are those given, else those in its configuration. -/
theorem C158_context (files : Dict Val) (entityId : String) (ownKeys : Val) (arg config : Given) (trPriority : Option (List String)) (m : Made)
    (h : initContext files entityId ownKeys arg config trPriority = .ok m) :
    m.ctx.defaultLifetime = (if arg.lifetime ≠ 0 then arg.lifetime else config.lifetime) ∧
    (∀ p, trPriority = some p → m.priority = p) ∧
    (∀ p, trPriority = none → arg.priority = some p → p ≠ [] → m.priority = p) ∧
    (∀ p, trPriority = none → arg.priority = none ∨ arg.priority = some [] → config.priority = some p → m.priority = p) ∧
    (trPriority = none → arg.priority = none ∨ arg.priority = some [] → config.priority = none →
      ∃ d, getRoots files m.ctx = .ok (.obj d) ∧ m.priority.Pairwise (· < ·) ∧ ∀ x, x ∈ m.priority ↔ x ∈ Dict.keys d) ∧
    (arg.marks.given = true → m.ctx.marks = arg.marks) ∧ (arg.marks.given = false → config.marks ≠ .nothing → m.ctx.marks = config.marks) ∧
    (arg.roots.given = true → m.ctx.roots = arg.roots) ∧ (arg.roots.given = false → config.roots ≠ .nothing → m.ctx.roots = config.roots) := by
  unfold initContext at h
  simp only at h
  generalize hctx : ({ entityId := entityId, ownKeys := ownKeys, defaultLifetime := (if arg.lifetime ≠ 0 then arg.lifetime else config.lifetime), marks := orElse arg.marks config.marks (.value (.arr [])), roots := orElse arg.roots config.roots (.value (.obj [])), hints := orElse arg.hints config.hints (.value (.arr [])) } : Ctx) = ctx at h
  split at h
  · cases h
  · rename_i p hp
    cases h
    have c1 : ctx.defaultLifetime = (if arg.lifetime ≠ 0 then arg.lifetime else config.lifetime) := by rw [← hctx]
    have c2 : ctx.marks = orElse arg.marks config.marks (.value (.arr [])) := by rw [← hctx]
    have c3 : ctx.roots = orElse arg.roots config.roots (.value (.obj [])) := by rw [← hctx]
    refine ⟨c1, ?_, ?_, ?_, ?_, ?_, ?_, ?_, ?_⟩
    · rintro q rfl; rfl
    · rintro q rfl hq hne
      rw [hq] at hp
      cases q with
      | nil => exact absurd rfl hne
      | cons x xs => cases hp; rfl
    · rintro q rfl hq hc
      rcases hq with hq | hq <;> rw [hq, hc] at hp <;> cases hp <;> rfl
    · rintro rfl hq hc
      have : (do let r ← getRoots files ctx; let ks ← rootKeys r; pure (sorted ks)) = Except.ok (ε := PyErr) p := by
        rcases hq with hq | hq <;> rw [hq, hc] at hp <;> exact hp
      cases hr : getRoots files ctx with
      | error e => rw [hr] at this; cases this
      | ok r =>
        rw [hr] at this
        simp only [ok_bind] at this
        cases r with
        | obj d => cases this; exact ⟨d, rfl, sorted_sorted _, fun x => mem_sorted x _⟩
        | null => cases this
        | bool b => cases this
        | int b => cases this
        | str b => cases this
        | arr b => cases this
    · intro hg; simp only [c2, orElse, hg, if_true]
    · intro hg hn; simp [c2, orElse, hg, hn]
    · intro hg; simp only [c3, orElse, hg, if_true]
    · intro hg hn; simp [c3, orElse, hg, hn]

/-- A context with a configuration only. -/
example : (initContext [] "https://x" .null {} { lifetime := 60, roots := .value (.obj [("https://ta2", .null), ("https://ta", .null)]) } none).map (fun m => (m.ctx.defaultLifetime, m.priority)) =
    .ok (60, ["https://ta", "https://ta2"]) := by decide +kernel

/-- Such a client: the trusted roots of its configuration in order, not the one that is given as an argument. -/
example : (makeClient [] "https://x" .null { roots := .value (.obj [("https://ta3", .null)]) } { lifetime := 60, roots := .value (.obj [("https://ta2", .null), ("https://ta", .null)]) }).map (·.priority) =
    .ok ["https://ta", "https://ta2"] := by decide +kernel

end Fed.Config.Settings
