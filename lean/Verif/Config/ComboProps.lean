import Verif.Config.Combo
/-
C164: what the parts of a combination are made with.
-/
namespace Fed.Config.Combo
open Fed

/-- The parameters for HTTP requests among the arguments a part is made with, or among those of its specification: in its configuration if it has one. -/
def paramsIn (args : Dict Val) : Option Val :=
  match args.get? "config" with
  | some (.obj c) => Dict.get? c "httpc_params"
  | some _ => none
  | none => args.get? "httpc_params"

/-- The arguments in a specification. -/
def kwargsOf (spec : Dict Val) : Dict Val :=
  match spec.get? "kwargs" with
  | some (.obj kw) => kw
  | _ => []

/-- The parameters a combination is made with: the argument, else those in its configuration, else those stated for the federation entity. -/
def Given (config : Dict Val) (params P : Val) : Prop :=
  P.truthy = true ∧ (P = params ∨ (params.truthy = false ∧ (config.get? "httpc_params" = some P ∨
    ((∀ v, config.get? "httpc_params" = some v → v.truthy = false) ∧ ∃ fe, config.get? "federation_entity" = some (.obj fe) ∧ Dict.get? fe "httpc_params" = some P))))

/-- C164, full: each part is made with the parameters for HTTP requests the combination is given, unless its specification has its own, and with the entity id of the combination, unless its
specification has its own. -/
def C164_full : Prop := ∀ (config : Dict Val) (entityId params P : Val) (ps : Dict (Dict Val)) (after : Dict Val), config.keys.Nodup → entityId.truthy = true → Given config params P →
  federationCombo config entityId params = .ok (ps, after) → ∀ k v spec, config.get? k = some v → specOf v = some spec →
  ∃ args, ps.get? k = some args ∧ paramsIn args = some ((paramsIn (kwargsOf spec)).getD P) ∧ args.get? "entity_id" = some (((kwargsOf spec).get? "entity_id").getD entityId)

/-- C164, over time: a combination made with its own parameters from a configuration that was used before is made with these parameters. -/
def C164_again_full : Prop := ∀ (config : Dict Val) (entityId params P entityId' params' : Val) (ps ps' : Dict (Dict Val)) (after after' : Dict Val), config.keys.Nodup →
  params'.truthy = true → Given config params P →
  federationCombo config entityId params = .ok (ps, after) → federationCombo after entityId' params' = .ok (ps', after') → ∀ k v spec kw, config.get? k = some v → specOf v = some spec →
  spec.get? "kwargs" = some (.obj kw) → paramsIn kw = none → ∃ args, ps'.get? k = some args ∧ paramsIn args = some params'

namespace Ex
def noTls : Val := .obj [("verify", .bool false)]
def tls : Val := .obj [("verify", .str "ca.pem")]
/-- A combination of a federation entity, a provider with a configuration of its own, and a part without arguments. -/
def config : Dict Val := [("entity_id", .str "https://op"),
  ("federation_entity", .obj [("class", .str "FederationEntity"), ("kwargs", .obj [("preference", .obj [])])]),
  ("openid_provider", .obj [("class", .str "ServerEntity"), ("kwargs", .obj [("config", .obj [("issuer", .str "https://op")])])]),
  ("trust_mark_entity", .obj [("class", .str "TrustMarkEntity")])]
end Ex

/-- C164 does not hold: a part whose specification has no arguments gets no parameters. -/
theorem C164_no_arguments_violation : ¬ C164_full := by
  intro h
  obtain ⟨args, h1, h2, -⟩ := h Ex.config (.str "https://op") Ex.tls Ex.tls
    [("federation_entity", [("entity_id", .str "https://op"), ("entity_type", .str "federation_entity"), ("httpc_params", Ex.tls), ("preference", .obj [])]),
     ("openid_provider", [("entity_id", .str "https://op"), ("entity_type", .str "openid_provider"), ("config", .obj [("issuer", .str "https://op"), ("httpc_params", Ex.tls)])]),
     ("trust_mark_entity", [("entity_id", .str "https://op"), ("entity_type", .str "trust_mark_entity")])]
    [("entity_id", .str "https://op"),
     ("federation_entity", .obj [("class", .str "FederationEntity"), ("kwargs", .obj [("preference", .obj []), ("httpc_params", Ex.tls)])]),
     ("openid_provider", .obj [("class", .str "ServerEntity"), ("kwargs", .obj [("config", .obj [("issuer", .str "https://op"), ("httpc_params", Ex.tls)])])]),
     ("trust_mark_entity", .obj [("class", .str "TrustMarkEntity")])]
    (by decide) (by decide) ⟨by decide, .inl rfl⟩ (by decide +kernel) "trust_mark_entity" _ [("class", .str "TrustMarkEntity")] rfl (by decide)
  cases h1
  exact absurd h2 (by decide)

/-- Nor over time: the configuration is changed, so the parts of a second combination get the parameters of the first. -/
theorem C164_again_violation : ¬ C164_again_full := by
  intro h
  obtain ⟨args, h1, h2⟩ := h [("federation_entity", .obj [("class", .str "FederationEntity"), ("kwargs", .obj [])])] (.str "https://op") Ex.noTls Ex.noTls (.str "https://op") Ex.tls
    [("federation_entity", [("entity_id", .str "https://op"), ("entity_type", .str "federation_entity"), ("httpc_params", Ex.noTls)])]
    [("federation_entity", [("entity_id", .str "https://op"), ("entity_type", .str "federation_entity"), ("httpc_params", Ex.noTls)])]
    [("federation_entity", .obj [("class", .str "FederationEntity"), ("kwargs", .obj [("httpc_params", Ex.noTls)])])]
    [("federation_entity", .obj [("class", .str "FederationEntity"), ("kwargs", .obj [("httpc_params", Ex.noTls)])])]
    (by decide) (by decide) ⟨by decide, .inl rfl⟩ (by decide +kernel) (by decide +kernel) "federation_entity" _ _ [] rfl rfl rfl rfl
  cases h1
  exact absurd h2 (by decide)

/-- What becomes of one entry of the configuration. -/
def Made (entityId params : Val) (k : String) (v : Val) (args : Option (Dict Val)) (after : Option Val) : Prop :=
  match specOf v with
  | none => args = none ∧ after = some v
  | some spec => ∃ spec' a, withParams spec params = .ok spec' ∧ partArgs entityId k spec' = .ok a ∧ args = some a ∧ after = some (.obj spec')

theorem parts_get? {entityId params : Val} : ∀ {config : Dict Val} {ps : Dict (Dict Val)} {after : Dict Val}, config.keys.Nodup → parts entityId params config = .ok (ps, after) →
    after.keys = config.keys ∧ ∀ k, (config.get? k = none → ps.get? k = none) ∧ ∀ v, config.get? k = some v → Made entityId params k v (ps.get? k) (after.get? k) := by
  intro config
  induction config with
  | nil =>
    intro ps after _ h
    simp only [parts, Except.ok.injEq, Prod.mk.injEq] at h
    obtain ⟨rfl, rfl⟩ := h
    exact ⟨rfl, fun k => ⟨fun _ => rfl, nofun⟩⟩
  | cons p rest ih =>
    intro ps after hn h
    obtain ⟨q, v⟩ := p
    have hn' : q ∉ Dict.keys rest ∧ (Dict.keys rest).Nodup := by simpa [Dict.keys] using hn
    have hq : Dict.get? rest q = none := (Dict.get?_eq_none_iff ..).2 hn'.1
    rw [parts] at h
    cases hs : specOf v with
    | none =>
      rw [hs] at h
      simp only at h
      cases hr : parts entityId params rest with
      | error e => rw [hr] at h; simp at h
      | ok r =>
        obtain ⟨ps0, c0⟩ := r
        rw [hr] at h
        simp only [ok_bind, Except.ok.injEq, Prod.mk.injEq] at h
        obtain ⟨rfl, rfl⟩ := h
        obtain ⟨i1, i2⟩ := ih hn'.2 hr
        refine ⟨by simpa [Dict.keys] using i1, fun k => ?_⟩
        rw [Dict.get?_cons, Dict.get?_cons]
        by_cases hk : q = k
        · subst hk
          rw [if_pos rfl, if_pos rfl]
          refine ⟨nofun, fun w hw => ?_⟩
          cases hw
          unfold Made
          rw [hs]
          exact ⟨(i2 q).1 hq, rfl⟩
        · rw [if_neg hk, if_neg hk]
          exact i2 k
    | some spec =>
      rw [hs] at h
      simp only at h
      cases ha : withParams spec params with
      | error e => rw [ha] at h; simp at h
      | ok spec' =>
        rw [ha] at h
        simp only [ok_bind] at h
        cases hp : partArgs entityId q spec' with
        | error e => rw [hp] at h; simp at h
        | ok a =>
          rw [hp] at h
          simp only [ok_bind] at h
          cases hr : parts entityId params rest with
          | error e => rw [hr] at h; simp at h
          | ok r =>
            obtain ⟨ps0, c0⟩ := r
            rw [hr] at h
            simp only [ok_bind, Except.ok.injEq, Prod.mk.injEq] at h
            obtain ⟨rfl, rfl⟩ := h
            obtain ⟨i1, i2⟩ := ih hn'.2 hr
            refine ⟨by simpa [Dict.keys] using i1, fun k => ?_⟩
            rw [Dict.get?_cons, Dict.get?_cons, Dict.get?_cons]
            by_cases hk : q = k
            · subst hk
              rw [if_pos rfl, if_pos rfl, if_pos rfl]
              refine ⟨nofun, fun w hw => ?_⟩
              cases hw
              unfold Made
              rw [hs]
              exact ⟨spec', a, ha, hp, rfl, rfl⟩
            · rw [if_neg hk, if_neg hk, if_neg hk]
              exact i2 k

/-- What adding the parameters does to a specification with arguments. -/
theorem addParams_ok {spec spec' kw : Dict Val} {P : Val} (h : addParams spec P = .ok spec') (hk : spec.get? "kwargs" = some (.obj kw)) :
    ∃ kw' : Dict Val, spec'.get? "kwargs" = some (.obj kw') ∧ paramsIn kw' = some ((paramsIn kw).getD P) ∧ (∀ k, k ≠ "config" → k ≠ "httpc_params" → kw'.get? k = Dict.get? kw k) ∧
      (∀ k, k ≠ "kwargs" → spec'.get? k = spec.get? k) := by
  unfold addParams at h
  rw [hk] at h
  simp only at h
  match hc : Dict.get? kw "config" with
  | some (.obj c) =>
    rw [hc] at h
    simp only at h
    have hp : paramsIn kw = Dict.get? c "httpc_params" := by unfold paramsIn; rw [hc]
    by_cases hh : Dict.has c "httpc_params"
    · rw [if_pos hh] at h
      cases h
      refine ⟨kw, hk, ?_, fun _ _ _ => rfl, fun _ _ => rfl⟩
      rw [hp]
      unfold Dict.has at hh
      cases hg : Dict.get? c "httpc_params" with
      | none => rw [hg] at hh; cases hh
      | some v => rfl
    · rw [if_neg hh] at h
      cases h
      refine ⟨_, Dict.get?_set_self _ _ _, ?_, fun k h1 _ => Dict.get?_set_ne _ _ (Ne.symm h1), fun k h1 => Dict.get?_set_ne _ _ (Ne.symm h1)⟩
      have hg : Dict.get? c "httpc_params" = none := by
        unfold Dict.has at hh
        cases hg : Dict.get? c "httpc_params" with
        | none => rfl
        | some v => rw [hg] at hh; exact absurd rfl hh
      rw [hp, hg]
      unfold paramsIn
      rw [Dict.get?_set_self]
      exact Dict.get?_set_self _ _ _
  | none =>
    rw [hc] at h
    simp only at h
    have hp : paramsIn kw = Dict.get? kw "httpc_params" := by unfold paramsIn; rw [hc]
    by_cases hh : Dict.has kw "httpc_params"
    · rw [if_pos hh] at h
      cases h
      refine ⟨kw, hk, ?_, fun _ _ _ => rfl, fun _ _ => rfl⟩
      rw [hp]
      unfold Dict.has at hh
      cases hg : Dict.get? kw "httpc_params" with
      | none => rw [hg] at hh; cases hh
      | some v => rfl
    · rw [if_neg hh] at h
      cases h
      refine ⟨_, Dict.get?_set_self _ _ _, ?_, fun k _ h1 => Dict.get?_set_ne _ _ (Ne.symm h1), fun k h1 => Dict.get?_set_ne _ _ (Ne.symm h1)⟩
      have hg : Dict.get? kw "httpc_params" = none := by
        unfold Dict.has at hh
        cases hg : Dict.get? kw "httpc_params" with
        | none => rfl
        | some v => rw [hg] at hh; exact absurd rfl hh
      rw [hp, hg]
      unfold paramsIn
      rw [Dict.get?_set_ne _ _ (by decide), hc]
      exact Dict.get?_set_self _ _ _
  | some .null => rw [hc] at h; cases h
  | some (.bool _) => rw [hc] at h; cases h
  | some (.int _) => rw [hc] at h; cases h
  | some (.str _) => rw [hc] at h; cases h
  | some (.arr _) => rw [hc] at h; cases h

theorem given_used {config : Dict Val} {entityId params P : Val} {r : Dict (Dict Val) × Dict Val} (hg : Given config params P) (h : federationCombo config entityId params = .ok r) :
    parts (if entityId.truthy then entityId else (config.get? "entity_id").getD .null) P config = .ok r := by
  obtain ⟨h1, h2⟩ := hg
  unfold federationCombo paramsFor at h
  by_cases hp : params.truthy = true
  · rcases h2 with rfl | ⟨h2, -⟩
    · rw [if_pos hp] at h; exact h
    · rw [hp] at h2; cases h2
  · rcases h2 with rfl | ⟨-, h2 | ⟨h2, fe, h3, h4⟩⟩
    · exact absurd h1 hp
    · rw [if_neg hp] at h
      unfold getParams at h
      rw [h2] at h
      simp only [Option.getD_some, h1, if_true, ok_bind] at h
      exact h
    · rw [if_neg hp] at h
      unfold getParams at h
      have h5 : ((config.get? "httpc_params").getD .null).truthy = false := by
        cases hc : config.get? "httpc_params" with
        | none => rfl
        | some v => exact h2 v hc
      rw [h5, h3] at h
      simp only [h4, Option.getD_some, ok_bind, Bool.false_eq_true, if_false] at h
      exact h

/-- C164 as far as it holds: for parts whose specification has arguments, whatever they are. What else the specification says is passed on as it is. Missing: parts whose specification has none. -/
theorem C164_arguments_partial (config : Dict Val) (entityId params P : Val) (ps : Dict (Dict Val)) (after : Dict Val) (hn : config.keys.Nodup) (hid : entityId.truthy = true)
    (hg : Given config params P) (h : federationCombo config entityId params = .ok (ps, after)) (k : String) (v : Val) (spec kw : Dict Val) (hv : config.get? k = some v)
    (hs : specOf v = some spec) (hk : spec.get? "kwargs" = some (.obj kw)) :
    ∃ args, ps.get? k = some args ∧ paramsIn args = some ((paramsIn kw).getD P) ∧ args.get? "entity_id" = some ((kw.get? "entity_id").getD entityId) ∧
      ∀ q, q ∉ ["config", "httpc_params", "entity_id", "entity_type"] → args.get? q = kw.get? q := by
  have h1 := given_used hg h
  rw [if_pos hid] at h1
  have h2 := ((parts_get? hn h1).2 k).2 v hv
  unfold Made at h2
  rw [hs] at h2
  obtain ⟨spec', a, h3, h4, h5, -⟩ := h2
  unfold withParams at h3
  rw [if_pos hg.1] at h3
  obtain ⟨kw', h6, h7, h8, -⟩ := addParams_ok h3 hk
  unfold partArgs at h4
  rw [h6] at h4
  simp only [Except.ok.injEq] at h4
  subst h4
  have hget : ∀ q, q ∉ ["entity_id", "entity_type"] → (Dict.update [("entity_id", entityId), ("entity_type", Val.str k)] kw').get? q = kw'.get? q := by
    intro q hq
    simp only [List.mem_cons, List.not_mem_nil, or_false, not_or] at hq
    rw [Dict.get?_update, Dict.get?_cons, if_neg (Ne.symm hq.1), Dict.get?_cons, if_neg (Ne.symm hq.2)]
    cases kw'.get? q <;> rfl
  refine ⟨_, h5, ?_, ?_, ?_⟩
  · rw [← h7]
    unfold paramsIn
    rw [hget _ (by decide), hget _ (by decide)]
  · rw [Dict.get?_update, h8 _ (by decide) (by decide)]
    cases Dict.get? kw "entity_id" <;> rfl
  · intro q hq
    simp only [List.mem_cons, List.not_mem_nil, or_false, not_or] at hq
    rw [hget q (by simp [hq.2.2.1, hq.2.2.2]), h8 q hq.1 hq.2.1]

/-- Over time: what a first combination was given stays with the configuration: parts without parameters of their own are made with the first combination's ever after. -/
theorem C164_first_stays (config : Dict Val) (entityId params P entityId' params' P' : Val) (ps ps' : Dict (Dict Val)) (after after' : Dict Val) (hn : config.keys.Nodup)
    (hg : Given config params P) (h : federationCombo config entityId params = .ok (ps, after)) (hg' : Given after params' P')
    (h' : federationCombo after entityId' params' = .ok (ps', after')) (k : String) (v : Val) (spec kw : Dict Val) (hv : config.get? k = some v)
    (hs : specOf v = some spec) (hk : spec.get? "kwargs" = some (.obj kw)) (hp : paramsIn kw = none) :
    ∃ args, ps'.get? k = some args ∧ paramsIn args = some P := by
  have h1 := given_used hg h
  obtain ⟨hkeys, h1⟩ := parts_get? hn h1
  have h2 := (h1 k).2 v hv
  unfold Made at h2
  rw [hs] at h2
  obtain ⟨spec', a, h3, -, -, h5⟩ := h2
  unfold withParams at h3
  rw [if_pos hg.1] at h3
  obtain ⟨kw', h6, h7, -, h8⟩ := addParams_ok h3 hk
  rw [hp] at h7
  have hs' : specOf (.obj spec') = some spec' := by
    unfold specOf at hs ⊢
    have hc : Dict.has spec' "class" = true := by
      unfold Dict.has
      rw [h8 "class" (by decide)]
      cases v with
      | obj d =>
        simp only at hs
        by_cases hd : Dict.has d "class"
        · rw [if_pos hd] at hs
          cases hs
          exact hd
        · rw [if_neg hd] at hs; cases hs
      | _ => cases hs
    simp only [hc, if_true]
  have h9 := given_used hg' h'
  have h10 := ((parts_get? (hkeys ▸ hn) h9).2 k).2 _ h5
  unfold Made at h10
  rw [hs'] at h10
  obtain ⟨spec'', a', h11, h12, h13, -⟩ := h10
  unfold withParams at h11
  rw [if_pos hg'.1] at h11
  obtain ⟨kw'', h14, h15, -, -⟩ := addParams_ok h11 h6
  rw [h7] at h15
  unfold partArgs at h12
  rw [h14] at h12
  simp only [Except.ok.injEq] at h12
  subst h12
  refine ⟨_, h13, ?_⟩
  rw [show some P = paramsIn kw'' from h15.symm]
  unfold paramsIn
  rw [Dict.get?_update, Dict.get?_update, Dict.get?_cons, if_neg (by simp), Dict.get?_cons, if_neg (by simp), Dict.get?_cons, if_neg (by simp), Dict.get?_cons,
    if_neg (by simp), Dict.get?_nil]
  cases Dict.get? kw'' "config" <;> cases Dict.get? kw'' "httpc_params" <;> rfl

/-- A combination with parameters in its configuration and a part that has its own. -/
example : ∃ ps after, federationCombo (("httpc_params", Ex.tls) :: Ex.config) .null .null = .ok (ps, after) ∧ Given (("httpc_params", Ex.tls) :: Ex.config) .null Ex.tls ∧
    (ps.map fun p => (p.1, paramsIn p.2)) = [("federation_entity", some Ex.tls), ("openid_provider", some Ex.tls), ("trust_mark_entity", none)] := by
  refine ⟨_, _, rfl, ⟨by decide, .inr ⟨by decide, .inl rfl⟩⟩, by decide +kernel⟩

end Fed.Config.Combo
