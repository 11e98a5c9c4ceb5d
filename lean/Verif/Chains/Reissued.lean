import Verif.Chains.ServedProps
import Verif.Collect.Reissue
/-
Property C133, continued: servers of this software make their statements anew, with the dates of the day, each time they are asked.
-/
namespace Fed.Chains
open Fed Verify

/-- The members run with the same settings at all times; the requests they have answered and the trust marks they show may differ. -/
def SameMembers (members : Int → String → Option Member) : Prop :=
  ∀ t t' e m, members t e = some m → ∃ m', members t' e = some m' ∧ m'.authority = m.authority

/-- The directory of what the members publish at a time. -/
def directoryAt (J : Jose) (members : Int → String → Option Member) (t : Int) : Directory := directory J (members t) t

/-- The federation at a time, documents being made at that time. -/
def worldAt (J : Jose) (members : Int → String → Option Member) (host : Val → Option String) (t : Int) : Collect.World := (world J (members t) host t).at t

/-- What may be found in the federation from `t0` to `t1`. -/
def period (J : Jose) (members : Int → String → Option Member) (t0 t1 : Int) : Collect.Period where
  S e := ∃ m, members t0 e = some m
  Cfg e j := ∃ t, t0 ≤ t ∧ t ≤ t1 ∧ j = (directoryAt J members t).cfg e
  About a e s := ∃ t, t0 ≤ t ∧ t ≤ t1 ∧ s = (directoryAt J members t).about a e
  Rel a e := ∃ m, members t0 e = some m ∧ a ∈ strs m.authority.hints

section
variable {J : Jose} {L : Lib} {member : String → Option Member} {members : Int → String → Option Member} {host : Val → Option String} {jar : KeyJar} {rank : String → Nat} {issued : Int}

/-- The statement an authority makes about a member that names it. -/
theorem WellKept.named (w : WellKept J L member host jar rank) {e a : String} {m : Member} (h : member e = some m) (ha : a ∈ strs m.authority.hints) :
    ∃ ma reg fe ep d kw, member a = some ma ∧ ma.authority.entityId = a ∧ Registered J ma.authority e (J.keys m.authority.ownKeys) reg ∧
      (objs ma.authority.metadata).get? "federation_entity" = some fe ∧ fe.get? "federation_fetch_endpoint" = some ep ∧ ep.truthy = true ∧ host ep = some a ∧
      (directory J member issued).about a e = token J a d ∧ Stated J ma.authority issued e (J.keys m.authority.ownKeys) (decode J d) ∧
      (Server.withPolicies ma.authority e (Server.addHints ma.authority.entityId reg)).1 = .ok kw ∧
      Server.createStatement ma.authority.ownKeys issued ma.authority.entityId e none kw = .ok d ∧
      (world J member host issued).fetch ep a e = .ok (some ((directory J member issued).about a e)) := by
  obtain ⟨ma, reg, fe, ep, h1, h2, h3, h4, h5, h6, h7⟩ := w.superior e m a h ha
  obtain ⟨hid, hne, -⟩ := w.id a ma h1
  obtain ⟨d, kw, k1, k2, k3, k4⟩ := h3.fetched (issued := issued) (w.id e m h).2.1 (by rw [hid]; rintro rfl; omega) (by rw [hid]; exact hne)
  rw [hid] at k1
  have hab : (directory J member issued).about a e = token J a d := by simp [directory, h1, k1, Except.toOption]
  refine ⟨ma, reg, fe, ep, d, kw, h1, hid, h3, h4, h5, h6, h7, hab, k2, k3, k4, ?_⟩
  have hh : (Server.fetch (Server.after ma.authority ma.requests) issued { iss := some a, sub := some e }).1 =
      (Server.fetch ma.authority issued { iss := some a, sub := some e }).1 :=
    Server.C56_partial _ _ _ _ (w.requests a ma h1) (by unfold Server.Harmless; rw [hid]; simp)
  simp [world, h7, h1, hh, k1, answer, hid, hab]

/-- The metadata of a member, as read by others. -/
theorem WellKept.md (w : WellKept J L member host jar rank) {e : String} {m : Member} (h : member e = some m) :
    ((directory J member issued).cfg e).payload.md = objs m.authority.metadata := by
  have := (w.cfg (issued := issued) h).2.metadata
  by_cases ht : m.authority.metadata.truthy = true
  · rw [if_pos ht] at this
    simp [Payload.md, this]
  · rw [if_neg ht] at this
    simp only [Payload.md, this, Option.getD_none]
    cases hm : m.authority.metadata with
    | obj d =>
      cases d with
      | nil => rfl
      | cons x xs => rw [hm] at ht; exact absurd rfl ht
    | null => rfl
    | bool b => rfl
    | int b => rfl
    | str b => rfl
    | arr b => rfl

/-- Whenever they are made, configurations say the same, but for their dates and trust marks. -/
theorem cfg_same (w : ∀ t, WellKept J L (members t) host jar rank) (hs : SameMembers members) (t t' : Int) {e : String} {m : Member} (h : members t e = some m) :
    ((directoryAt J members t).cfg e).payload.hints = ((directoryAt J members t').cfg e).payload.hints ∧
    ((directoryAt J members t).cfg e).payload.md = ((directoryAt J members t').cfg e).payload.md ∧
    ((directoryAt J members t).cfg e).payload.sub = ((directoryAt J members t').cfg e).payload.sub ∧
    ((directoryAt J members t).cfg e).payload.constraints = ((directoryAt J members t').cfg e).payload.constraints := by
  obtain ⟨m', h', ha⟩ := hs t t' e m h
  have p := ((w t).cfg (issued := t) h).2
  have p' := ((w t').cfg (issued := t') h').2
  unfold directoryAt
  refine ⟨?_, ?_, ?_, ?_⟩
  · rw [(w t).read h, (w t').read h', ha]
  · rw [(w t).md h, (w t').md h', ha]
  · rw [p.sub, p'.sub, ha]
  · rw [p.constraints, p'.constraints]

/-- Whenever they are made, statements say the same, but for their dates. -/
theorem about_same (w : ∀ t, WellKept J L (members t) host jar rank) (hs : SameMembers members) (t t' : Int) {e a : String} {m : Member} (h : members t e = some m)
    (ha : a ∈ strs m.authority.hints) :
    toC ((directoryAt J members t).about a e).payload = toC ((directoryAt J members t').about a e).payload ∧
    toP ((directoryAt J members t).about a e).payload = toP ((directoryAt J members t').about a e).payload := by
  obtain ⟨m', h', hau⟩ := hs t t' e m h
  obtain ⟨ma, reg, -, -, d, kw, b1, b2, b3, -, -, -, -, b8, b9, b10, b11, -⟩ := (w t).named (issued := t) h ha
  obtain ⟨ma', reg', -, -, d', kw', c1, c2, c3, -, -, -, -, c8, c9, c10, c11, -⟩ := (w t').named (issued := t') h' (by rw [hau]; exact ha)
  obtain ⟨ma2, d1, d2⟩ := hs t t' a ma b1
  rw [c1] at d1
  cases d1
  have hreg : reg = reg' := by
    have := b3.entry
    rw [← d2, c3.entry] at this
    exact (Option.some.inj this).symm
  subst hreg
  rw [d2, b10] at c10
  cases c10
  obtain ⟨-, -, -, e4, -⟩ := Server.C59_payload _ _ _ _ _ _ _ b11
  obtain ⟨-, -, -, f4, -⟩ := Server.C59_payload _ _ _ _ _ _ _ c11
  have key : ∀ k ∈ ["metadata", "metadata_policy", "aud", "constraints"], d.get? k = d'.get? k := fun k hk => by rw [e4 k hk, f4 k hk]
  unfold directoryAt
  rw [b8, c8]
  constructor
  · simp only [toC, token]
    rw [b9.sub, c9.sub]
    simp only [decode, key "constraints" (by simp)]
  · simp only [toP, token, Payload.md, decode, key "metadata" (by simp), key "metadata_policy" (by simp)]

theorem keys_same (hs : SameMembers members) (t t' : Int) {e : String} {m : Member} (h : members t e = some m) :
    (directoryAt J members t).keys e = (directoryAt J members t').keys e := by
  obtain ⟨m', h', ha⟩ := hs t t' e m h
  simp [directoryAt, directory, h, h', ha]

/-- From `t0` to less than a day later, everything that may be found stays good. -/
theorem period_sound (w : ∀ t, WellKept J L (members t) host jar rank) (hs : SameMembers members) (P : Collect.Params) {t0 t1 now : Int} (hn : now ≤ t1) (hd : 0 ≤ P.delta)
    (h1 : t1 < t0 + 86400 - P.delta) : (period J members t0 t1).Sound L.toCrypto P now := by
  have get : ∀ k t, (∃ m, members t0 k = some m) → ∃ m, members t k = some m := by
    rintro k t ⟨m, h⟩
    obtain ⟨m', h', -⟩ := hs t0 t k m h
    exact ⟨m', h'⟩
  refine ⟨?_, ?_, ?_, ?_, ?_, ?_⟩
  · rintro k ⟨m, h⟩
    exact ((w t0).id k m h).2.2
  · rintro k j hS ⟨t, k1, k2, rfl⟩
    obtain ⟨m, h⟩ := get k t hS
    have p := (w t).cfg (issued := t) h
    unfold selfVerify
    unfold directoryAt
    rw [p.2.jwks]
    simp only
    rw [if_pos]
    obtain ⟨x, x1, x2, x3⟩ := (w t).signs k m ((Server.entityConfiguration m.authority t m.marks).toOption.getD []) h
    have htok : (directory J (members t) t).cfg k = token J k ((Server.entityConfiguration m.authority t m.marks).toOption.getD []) := by simp [directory, h]
    rw [Bool.and_eq_true]
    refine ⟨?_, (w t).time _ _ _ p.2.exp (by omega)⟩
    rw [htok]
    simp only [Lib.toCrypto, List.any_eq_true]
    exact ⟨x, List.mem_filter.2 ⟨x1, x2⟩, x3⟩
  · rintro k j hS ⟨t, k1, k2, rfl⟩
    obtain ⟨m, h⟩ := get k t hS
    exact ⟨_, ((w t).cfg (issued := t) h).2.exp, by omega, by omega⟩
  · rintro k j hs' ⟨m, h⟩ ⟨t, k1, k2, rfl⟩ hh a ha
    rw [(cfg_same w hs t0 t h).1.symm] at hh
    unfold directoryAt at hh
    rw [(w t0).read h] at hh
    split at hh
    · cases hh
    · cases hh
      obtain ⟨ma, _, _, _, h3, _⟩ := (w t0).superior k m a h ha
      exact ⟨⟨ma, h3⟩, m, h, ha⟩
  · rintro a e j ⟨m, h, ha⟩ ⟨t, k1, k2, rfl⟩
    obtain ⟨ma, reg, fe, ep, d, kw, b1, b2, b3, b4, b5, b6, b7, -⟩ := (w t0).named (issued := t0) h ha
    refine ⟨some ep, ep, ?_, by simp [Collect.usableEndpoint, b6]⟩
    unfold Collect.getFetchEndpoint
    rw [(cfg_same w hs t0 t b1).2.1.symm]
    unfold directoryAt
    rw [(w t0).md b1, b4]
    simp only [b5]
  · rintro a e s ⟨m, h, ha⟩ ⟨t, k1, k2, rfl⟩
    obtain ⟨m', h', hau⟩ := hs t0 t e m h
    obtain ⟨ma, reg, fe, ep, d, kw, b1, b2, b3, b4, b5, b6, b7, b8, b9, -⟩ := (w t).named (issued := t) h' (by rw [hau]; exact ha)
    refine ⟨t + 86400, ?_, by omega⟩
    unfold directoryAt
    rw [b8]
    exact b9.exp

/-- Nothing else is found at a time of the period. -/
theorem period_serves (w : ∀ t, WellKept J L (members t) host jar rank) (hs : SameMembers members) {t0 t1 t : Int} (h0 : t0 ≤ t) (h1 : t ≤ t1) :
    (period J members t0 t1).Serves (worldAt J members host t) := by
  constructor
  · intro k j hj
    cases hm : members t k with
    | none => simp [worldAt, world, Collect.Federation.at, hm] at hj
    | some m =>
      have : (world J (members t) host t).config k = .ok (some j) := hj
      rw [((w t).cfg (issued := t) hm).1] at this
      cases this
      obtain ⟨m', h', -⟩ := hs t t0 k m hm
      exact ⟨⟨m', h'⟩, t, h0, h1, rfl⟩
  · rintro a e j ep v s ⟨m, h, ha⟩ ⟨t', k1, k2, rfl⟩ hep hu hf
    obtain ⟨m', h', hau⟩ := hs t0 t e m h
    obtain ⟨ma, reg, fe, ep', d, kw, b1, b2, b3, b4, b5, b6, b7, b8, b9, b10, b11, b12⟩ := (w t).named (issued := t) h' (by rw [hau]; exact ha)
    unfold Collect.getFetchEndpoint at hep
    rw [(cfg_same w hs t t' b1).2.1.symm] at hep
    unfold directoryAt at hep
    rw [(w t).md b1, b4] at hep
    simp only [b5, Except.ok.injEq] at hep
    subst hep
    simp only [Collect.usableEndpoint, b6, if_true, Option.some.injEq] at hu
    subst hu
    have hf : (world J (members t) host t).fetch ep' a e = .ok (some s) := hf
    rw [b12] at hf
    cases hf
    exact ⟨t, h0, h1, rfl⟩

/-- The documents in the caches, and for the rest those of the time. -/
def seen (J : Jose) (members : Int → String → Option Member) (now : Int) (st : Collect.State) : Directory where
  cfg e := match st.config.get? e with
    | some c => c.jws
    | none => (directoryAt J members now).cfg e
  about a e := match st.es.get? (Collect.cacheKey a e) with
    | some (.stmt j) => j
    | _ => (directoryAt J members now).about a e
  keys := (directoryAt J members now).keys

/-- The configurations and statements of a directory each date from some time of a period. -/
structure FromPeriod (J : Jose) (members : Int → String → Option Member) (t0 t1 : Int) (D : Directory) : Prop where
  cfg : ∀ e m, members t1 e = some m → ∃ t, t0 ≤ t ∧ t ≤ t1 ∧ D.cfg e = (directoryAt J members t).cfg e
  about : ∀ e m a, members t1 e = some m → a ∈ strs m.authority.hints → ∃ t, t0 ≤ t ∧ t ≤ t1 ∧ D.about a e = (directoryAt J members t).about a e

theorem seen_fromPeriod (w : ∀ t, WellKept J L (members t) host jar rank) (hs : SameMembers members) {t0 now : Int} (h0 : t0 ≤ now) {st : Collect.State}
    (h : Collect.Past (period J members t0 now) st) : FromPeriod J members t0 now (seen J members now st) := by
  constructor
  · intro e m hm
    unfold seen
    simp only
    cases hc : st.config.get? e with
    | none => exact ⟨now, h0, by omega, rfl⟩
    | some c => exact (h.config e c hc).2
  · intro e m a hm ha
    unfold seen
    simp only
    obtain ⟨ma, _, _, _, h3, _⟩ := (w now).superior e m a hm ha
    cases hc : st.es.get? (Collect.cacheKey a e) with
    | none => exact ⟨now, h0, by omega, rfl⟩
    | some v =>
      obtain ⟨j, rfl, -, h2, -⟩ := h.stmt a e ((w now).id a ma h3).2.2 ((w now).id e m hm).2.2 v hc
      exact h2

/-- Documents that each date from some time of a day are those of a well-run federation. -/
theorem FromPeriod.wellRun (w : ∀ t, WellKept J L (members t) host jar rank) (hs : SameMembers members) (P : Collect.Params) {t0 now : Int} (h0 : t0 ≤ now)
    (clock : Int) (h1 : clock < t0 + 86400 - P.delta ∧ clock < t0 + 86400) (stopAt : String) (hstop : Stop (members now) stopAt) {D : Directory} (fp : FromPeriod J members t0 now D)
    (hk : D.keys = (directoryAt J members now).keys) (F : Collect.Federation) (hF1 : ∀ e m, members now e = some m → F.config e = .ok (some (D.cfg e)))
    (hF2 : ∀ e m a ep, members now e = some m → a ∈ strs m.authority.hints → (world J (members now) host now).fetch ep a e = .ok (some ((directoryAt J members now).about a e)) →
      F.fetch ep a e = .ok (some (D.about a e))) :
    WellRun L P F clock stopAt jar D (fun e => ∃ m, members now e = some m) rank := by
  have hstop' : ∀ t, Stop (members t) stopAt := by
    intro t m hm
    obtain ⟨m', h', h2⟩ := hs t now stopAt m hm
    rw [← h2]; exact hstop m' h'
  have wr : ∀ t, t0 ≤ t → t ≤ now → WellRun L P (world J (members t) host t) clock stopAt jar (directoryAt J members t) (fun e => ∃ m, members t e = some m) rank := fun t k1 k2 =>
    (w t).wellRun P clock stopAt (by omega) (hstop' t)
  have get : ∀ k t, (∃ m, members now k = some m) → ∃ m, members t k = some m := by
    rintro k t ⟨m, h⟩
    obtain ⟨m', h', -⟩ := hs now t k m h
    exact ⟨m', h'⟩
  have hints : ∀ e m, members now e = some m → ((D).cfg e).payload.hints = ((directoryAt J members now).cfg e).payload.hints := by
    intro e m hm
    obtain ⟨t, k1, k2, k3⟩ := fp.cfg e m hm
    rw [k3]
    exact ((cfg_same w hs now t hm).1).symm
  have named : ∀ e m hs' a, members now e = some m → ((D).cfg e).payload.hints = some hs' → a ∈ hs' → a ∈ strs m.authority.hints := by
    intro e m hs' a hm hh ha
    rw [hints e m hm] at hh
    unfold directoryAt at hh
    rw [(w now).read hm] at hh
    split at hh
    · cases hh
    · cases hh; exact ha
  -- a statement that is seen is one of some time
  have at_time : ∀ e m hs' a, members now e = some m → ((D).cfg e).payload.hints = some hs' → a ∈ hs' →
      ∃ t m', t0 ≤ t ∧ t ≤ now ∧ members t e = some m' ∧ (D).about a e = (directoryAt J members t).about a e ∧
        ((directoryAt J members t).cfg e).payload.hints = some hs' := by
    intro e m hs' a hm hh ha
    obtain ⟨t, k1, k2, k3⟩ := fp.about e m a hm (named e m hs' a hm hh ha)
    obtain ⟨m', h', -⟩ := hs now t e m hm
    exact ⟨t, m', k1, k2, h', k3, by rw [← (cfg_same w hs now t hm).1, ← hints e m hm]; exact hh⟩
  refine ⟨?_, ?_, ?_, ?_, ?_, ?_, ?_, ?_, ?_, ?_, ?_⟩
  · rintro e ⟨m, hm⟩
    exact hF1 e m hm
  · rintro e ⟨m, hm⟩
    obtain ⟨t, k1, k2, k3⟩ := fp.cfg e m hm
    have := (wr t k1 k2).self e (get e t ⟨m, hm⟩)
    rw [k3]
    rw [hk, keys_same hs now t hm]
    exact this
  · rintro e ⟨m, hm⟩
    obtain ⟨t, k1, k2, k3⟩ := fp.cfg e m hm
    have := (wr t k1 k2).selfSigned e (get e t ⟨m, hm⟩)
    rw [k3, hk]
    rw [← keys_same hs now t hm] at this
    exact this
  · rintro e ⟨m, hm⟩
    obtain ⟨t, k1, k2, k3⟩ := fp.cfg e m hm
    rw [k3]
    exact (wr t k1 k2).current e (get e t ⟨m, hm⟩)
  · rintro e ⟨m, hm⟩
    obtain ⟨t, k1, k2, k3⟩ := fp.cfg e m hm
    rw [k3]
    exact (wr t k1 k2).fresh e (get e t ⟨m, hm⟩)
  · rintro e hs' ⟨m, hm⟩ hh
    rw [hints e m hm] at hh
    exact (wr now h0 (by omega)).notStop e hs' ⟨m, hm⟩ hh
  · rintro e hs' ⟨m, hm⟩ hh
    rw [hints e m hm] at hh
    exact (wr now h0 (by omega)).hints e hs' ⟨m, hm⟩ hh
  · rintro e hs' a ⟨m, hm⟩ hh ha
    obtain ⟨fe, ep, k1, k2, k3, k4⟩ := (wr now h0 (by omega)).served e hs' a ⟨m, hm⟩ (by rw [← hints e m hm]; exact hh) ha
    obtain ⟨ma, _, _, _, h3, _⟩ := (w now).superior e m a hm (named e m hs' a hm hh ha)
    refine ⟨fe, ep, ?_, k2, k3, ?_⟩
    · obtain ⟨t, l1, l2, l3⟩ := fp.cfg a ma h3
      rw [l3, ← (cfg_same w hs now t h3).2.1]
      exact k1
    · exact hF2 e m a ep hm (named e m hs' a hm hh ha) k4
  · rintro e hs' a ⟨m, hm⟩ hh ha
    obtain ⟨t, m', k1, k2, k3, k4, k5⟩ := at_time e m hs' a hm hh ha
    obtain ⟨l1, l2, l3, l4⟩ := (wr t k1 k2).stated e hs' a ⟨m', k3⟩ k5 ha
    rw [k4]
    refine ⟨l1, l2, ?_, l4⟩
    rw [hk, keys_same hs now t hm]
    exact l3
  · rintro e hs' a ⟨m, hm⟩ hh ha
    obtain ⟨t, m', k1, k2, k3, k4, k5⟩ := at_time e m hs' a hm hh ha
    obtain ⟨ma, _, _, _, h3, _⟩ := (w now).superior e m a hm (named e m hs' a hm hh ha)
    have := (wr t k1 k2).signed e hs' a ⟨m', k3⟩ k5 ha
    rw [k4, hk]
    rw [← keys_same hs now t h3] at this
    exact this
  · rintro e ⟨m, hm⟩ hh
    rw [hints e m hm] at hh
    rw [hk]
    exact (wr now h0 (by omega)).anchors e ⟨m, hm⟩ hh

/-- What is seen is what a well-run federation publishes. -/
theorem seen_wellRun (w : ∀ t, WellKept J L (members t) host jar rank) (hs : SameMembers members) (P : Collect.Params) {t0 now : Int} (h0 : t0 ≤ now) (hd : 0 ≤ P.delta)
    (h1 : now < t0 + 86400 - P.delta) (stopAt : String) (hstop : Stop (members now) stopAt) {st : Collect.State} (h : Collect.Past (period J members t0 now) st) :
    WellRun L P (Collect.view (worldAt J members host now) st) now stopAt jar (seen J members now st) (fun e => ∃ m, members now e = some m) rank := by
  refine (seen_fromPeriod w hs h0 h).wellRun w hs P h0 now (by omega) stopAt hstop rfl _ (fun e m hm => ?_) (fun e m a ep hm ha k4 => ?_)
  · simp only [Collect.view, seen]
    cases hc : st.config.get? e with
    | some c => rfl
    | none => exact ((w now).cfg (issued := now) hm).1
  · obtain ⟨ma, _, _, _, h3, _⟩ := (w now).superior e m a hm ha
    simp only [Collect.view, seen]
    cases hc : st.es.get? (Collect.cacheKey a e) with
    | none => exact k4
    | some v =>
      obtain ⟨j, rfl, -⟩ := h.stmt a e ((w now).id a ma h3).2.2 ((w now).id e m hm).2.2 v hc
      rfl

end

/-- Statements along a way up, for two directories that say the same. -/
theorem stmtsOf_alike {α : Type} (f : Payload → α) {D D' : Directory} {e : String} {p : List String} (h : Up D e p) {S : String → Prop} (he : S e)
    (hS : ∀ e hs a, S e → (D.cfg e).payload.hints = some hs → a ∈ hs → S a ∧ f (D.about a e).payload = f (D'.about a e).payload) :
    ((stmtsOf D e p).map (·.payload)).map f = ((stmtsOf D' e p).map (·.payload)).map f := by
  induction h with
  | top hh ha hn => simp [stmtsOf, (hS _ _ _ he hh ha).2]
  | step hh ha hup ih =>
    obtain ⟨h1, h2⟩ := hS _ _ _ he hh ha
    have := ih h1
    simp only [stmtsOf, List.map_append, List.map_cons, List.map_nil, this, h2]

theorem Up.of_hints {D D' : Directory} {e : String} {p : List String} (h : Up D e p) {S : String → Prop} (he : S e)
    (hS : ∀ e, S e → (D'.cfg e).payload.hints = (D.cfg e).payload.hints) (hup : ∀ e hs a, S e → (D.cfg e).payload.hints = some hs → a ∈ hs → S a) : Up D' e p := by
  induction h with
  | top hh ha hn => exact .top (by rw [hS _ he]; exact hh) ha (by rw [hS _ (hup _ _ _ he hh ha)]; exact hn)
  | step hh ha _ ih => exact .step (by rw [hS _ he]; exact hh) ha (ih (hup _ _ _ he hh ha))

/-- Constraints read nothing of statements but subjects and constraints. -/
theorem WithinConstraints.alike {sups sups' : List Payload} {leaf leaf' : Payload} (h : WithinConstraints sups leaf) (hs : sups.map toC = sups'.map toC) (hl : toC leaf = toC leaf') :
    WithinConstraints sups' leaf' := by
  have mem : ∀ p ∈ sups', ∃ q ∈ sups, toC q = toC p := by
    intro p hp
    have : toC p ∈ sups.map toC := by rw [hs]; exact List.mem_map_of_mem hp
    exact List.mem_map.1 this
  refine ⟨?_, hl ▸ h.leafUrl, ?_, by rw [← hs, ← hl]; exact h.keeps, by rw [← hs]; exact h.narrowing⟩
  · intro p hp
    obtain ⟨q, hq, he⟩ := mem p hp
    rw [← he]; exact h.urls q hq
  · intro p hp
    obtain ⟨q, hq, he⟩ := mem p hp
    rw [← he]; exact h.both q hq

/-- What is declared reads nothing of statements but metadata and policies. -/
theorem AsDeclared.alike {want : String → String → Policy.Want} {sups sups' : List Payload} {leaf leaf' : Payload} {r : Dict Val} (h : AsDeclared want sups leaf r)
    (hs : sups.map toP = sups'.map toP) (hl : leaf.md = leaf'.md) : AsDeclared want sups' leaf' r := by
  have mem : ∀ (l l' : List Payload), l.map toP = l'.map toP → ∀ p ∈ l, ∃ q ∈ l', toP q = toP p := by
    intro l l' e p hp
    have : toP p ∈ l'.map toP := by rw [← e]; exact List.mem_map_of_mem hp
    exact List.mem_map.1 this
  intro t md ht
  rw [← hl] at ht
  obtain ⟨m, h1, h2, h3⟩ := h t md ht
  refine ⟨m, h1, fun s hm c hc => ?_, fun c v hv hno => h3 c v hv fun s hm hc => ?_⟩
  · obtain ⟨q, hq, e⟩ := mem _ _ hs.symm s hm
    exact h2 q hq c (by rw [e]; exact hc)
  · obtain ⟨q, hq, e⟩ := mem _ _ hs s hm
    exact hno q hq (by rw [e]; exact hc)

/-- What documents of different times say, as far as ways up, constraints, policies and metadata go, is what those of one time say. -/
theorem FromPeriod.alike {J : Jose} {L : Lib} {members : Int → String → Option Member} {host : Val → Option String} {jar : KeyJar} {rank : String → Nat}
    (w : ∀ t, WellKept J L (members t) host jar rank) (hs : SameMembers members) {t0 now : Int} {D : Directory} (fp : FromPeriod J members t0 now D) {entity : String} {m : Member}
    (he : members now entity = some m) :
    (∀ p, Up D entity p ↔ Up (directoryAt J members now) entity p) ∧
    (∀ p, Up (directoryAt J members now) entity p →
      ((stmtsOf (directoryAt J members now) entity p).map (·.payload)).map (fun q => (toC q, toP q)) = ((stmtsOf D entity p).map (·.payload)).map fun q => (toC q, toP q)) ∧
    ((directoryAt J members now).cfg entity).payload.md = (D.cfg entity).payload.md ∧ toC ((directoryAt J members now).cfg entity).payload = toC (D.cfg entity).payload ∧
    ((directoryAt J members now).cfg entity).payload.hints = (D.cfg entity).payload.hints := by
  have cfgs : ∀ e m, members now e = some m →
      ((directoryAt J members now).cfg e).payload.hints = (D.cfg e).payload.hints ∧
      ((directoryAt J members now).cfg e).payload.md = (D.cfg e).payload.md ∧
      ((directoryAt J members now).cfg e).payload.sub = (D.cfg e).payload.sub ∧
      ((directoryAt J members now).cfg e).payload.constraints = (D.cfg e).payload.constraints := by
    intro e m hm
    obtain ⟨t, -, -, k3⟩ := fp.cfg e m hm
    have := cfg_same w hs now t hm
    rw [← k3] at this
    exact this
  have named : ∀ e m hs' a, members now e = some m → ((directoryAt J members now).cfg e).payload.hints = some hs' → a ∈ hs' → a ∈ strs m.authority.hints := by
    intro e m hs' a hm hh ha
    unfold directoryAt at hh
    rw [(w now).read hm] at hh
    split at hh
    · cases hh
    · cases hh; exact ha
  have closed' : ∀ e hs a, (∃ m, members now e = some m) → ((directoryAt J members now).cfg e).payload.hints = some hs → a ∈ hs → ∃ m, members now a = some m := by
    rintro e hs' a ⟨m, hm⟩ hh ha
    obtain ⟨ma, _, _, _, h3, _⟩ := (w now).superior e m a hm (named e m hs' a hm hh ha)
    exact ⟨ma, h3⟩
  have closed : ∀ e hs a, (∃ m, members now e = some m) → (D.cfg e).payload.hints = some hs → a ∈ hs → ∃ m, members now a = some m := by
    rintro e hs' a ⟨m, hm⟩ hh ha
    exact closed' e hs' a ⟨m, hm⟩ (by rw [(cfgs e m hm).1]; exact hh) ha
  refine ⟨fun p => ⟨fun hp => hp.of_hints (S := fun e => ∃ m, members now e = some m) ⟨m, he⟩ (fun e ⟨m, hm⟩ => (cfgs e m hm).1) closed,
    fun hp => hp.of_hints (S := fun e => ∃ m, members now e = some m) ⟨m, he⟩ (fun e ⟨m, hm⟩ => (cfgs e m hm).1.symm) closed'⟩, fun p hp => ?_,
    (cfgs entity m he).2.1, by simp only [toC, (cfgs entity m he).2.2.1, (cfgs entity m he).2.2.2], (cfgs entity m he).1⟩
  refine stmtsOf_alike (fun q => (toC q, toP q)) (D' := D) hp (S := fun e => ∃ m, members now e = some m) ⟨m, he⟩ ?_
  intro e hs' a hS hh ha
  refine ⟨closed' e hs' a hS hh ha, ?_⟩
  obtain ⟨m, hm⟩ := hS
  obtain ⟨t, -, -, k3⟩ := fp.about e m a hm (named e m hs' a hm hh ha)
  obtain ⟨l1, l2⟩ := about_same w hs now t hm (named e m hs' a hm hh ha)
  rw [k3, l1, l2]

/-- So they are within constraints and policies if those are. -/
theorem FromPeriod.within {J : Jose} {L : Lib} {members : Int → String → Option Member} {host : Val → Option String} {jar : KeyJar} {rank : String → Nat}
    (w : ∀ t, WellKept J L (members t) host jar rank) (hs : SameMembers members) {t0 now : Int} {D : Directory} (fp : FromPeriod J members t0 now D) {entity : String} {m : Member}
    (he : members now entity = some m) {p : List String} (hp : Up (directoryAt J members now) entity p) (want : String → String → Policy.Want) (M : String → Policy.Metadata) :
    (WithinConstraints ((stmtsOf (directoryAt J members now) entity p).map (·.payload)) ((directoryAt J members now).cfg entity).payload →
      WithinConstraints ((stmtsOf D entity p).map (·.payload)) (D.cfg entity).payload) ∧
    ((∀ s ∈ stmtsOf (directoryAt J members now) entity p, SatisfiedBy want M ((directoryAt J members now).cfg entity).payload s.payload) →
      ∀ s ∈ stmtsOf D entity p, SatisfiedBy want M (D.cfg entity).payload s.payload) ∧
    ∀ r, AsDeclared want ((stmtsOf D entity p).map (·.payload)) (D.cfg entity).payload r →
      AsDeclared want ((stmtsOf (directoryAt J members now) entity p).map (·.payload)) ((directoryAt J members now).cfg entity).payload r := by
  obtain ⟨-, alike, hmd, hC, -⟩ := fp.alike w hs he
  refine ⟨fun h => h.alike ?_ hC, fun h s hs' => ?_, fun r h => h.alike ?_ hmd.symm⟩
  · have := congrArg (List.map Prod.fst) (alike p hp)
    simpa [List.map_map, Function.comp_def] using this
  · have hmem : (toC s.payload, toP s.payload) ∈ ((stmtsOf (directoryAt J members now) entity p).map (·.payload)).map fun q => (toC q, toP q) := by
      rw [alike p hp, List.map_map]
      exact List.mem_map.2 ⟨s, hs', rfl⟩
    rw [List.map_map] at hmem
    obtain ⟨s', k1, k2⟩ := List.mem_map.1 hmem
    have k2' : toP s'.payload = toP s.payload := congrArg Prod.snd k2
    have := h s' k1
    unfold SatisfiedBy at this ⊢
    rw [← k2', ← hmd]
    exact this
  · have := congrArg (List.map Prod.snd) (alike p hp)
    simpa [List.map_map, Function.comp_def] using this.symm

/-- C133: the members of a federation that all run this software, each making its statements anew whenever it is asked, are resolved by whoever runs this software, up to a day (less the allowed
delta) after it began to collect there: there is a chain for each way up to an anchor, made of statements issued since then, all with the metadata the entity declares, and no other chain, whatever was
collected and asked before, and in whatever order. Missing: as for C109; later collections, for which it is false (`C133_next_day_violation`). -/
theorem C133_reissued_partial (V : Env) (J : Jose) (members : Int → String → Option Member) (host : Val → Option String) (t0 now : Int) (st : State) (h : List Collect.FRun) (stopAt entity : String)
    (m : Member) (rank : String → Nat) (want : String → String → Policy.Want) (M : String → Policy.Metadata)
    (w : ∀ t, WellKept J V.L (members t) host st.jar rank) (hs : SameMembers members) (hW : V.W = worldAt J members host now)
    (hst : st.coll = Collect.runAll V.L.toCrypto V.P (h.map fun r => ⟨worldAt J members host r.time, r.fuel, r.entity, r.stopAt⟩))
    (ht : ∀ r ∈ h, t0 ≤ r.time ∧ r.time ≤ now) (h0 : t0 ≤ now) (hd : 0 ≤ V.P.delta) (hnow : now < t0 + 86400 - V.P.delta) (hstop : Stop (members now) stopAt)
    (he : members now entity = some m) (hfuel : rank entity < V.fuel) (hhints : strs m.authority.hints ≠ []) (hmd : m.authority.metadata.truthy = true)
    (hcon : ∀ p, Up (directoryAt J members now) entity p → WithinConstraints ((stmtsOf (directoryAt J members now) entity p).map (·.payload)) ((directoryAt J members now).cfg entity).payload)
    (hpol : ∀ p, Up (directoryAt J members now) entity p → ∀ s ∈ stmtsOf (directoryAt J members now) entity p,
      SatisfiedBy want M ((directoryAt J members now).cfg entity).payload s.payload) :
    ∃ D out, FromPeriod J members t0 now D ∧ (getVerified V st entity stopAt).1 = .ok out ∧ out ≠ [] ∧
      (∀ p, Up (directoryAt J members now) entity p → ∃ tc ∈ out, Resolved D want entity p tc) ∧
      ∀ tc ∈ out, ∃ p, Up (directoryAt J members now) entity p ∧ Resolved D want entity p tc ∧
        AsDeclared want ((stmtsOf (directoryAt J members now) entity p).map (·.payload)) ((directoryAt J members now).cfg entity).payload tc.metadata := by
  have hpast : Collect.Past (period J members t0 now) st.coll := by
    rw [hst]
    refine Collect.runAll_past _ ?_
    intro r hr
    obtain ⟨r', hr', rfl⟩ := List.mem_map.1 hr
    obtain ⟨k1, k2⟩ := ht r' hr'
    exact ⟨period_sound w hs V.P k2 hd hnow, period_serves w hs k1 k2⟩
  have fp := seen_fromPeriod w hs h0 hpast
  have wr := seen_wellRun w hs V.P h0 hd hnow stopAt hstop hpast
  obtain ⟨ups, -, -, -, hh⟩ := fp.alike w hs he
  refine ⟨seen J members now st.coll, ?_⟩
  obtain ⟨out, g1, g2, g3, g4⟩ := wr.resolved V _ st now stopAt entity _ _ rank want M (by
      rw [hW]
      exact hpast.collect_ideal (period_sound w hs V.P (Int.le_refl _) hd hnow) (period_serves w hs h0 (Int.le_refl _)) V.fuel entity stopAt ((w now).id _ _ he).2.2) ⟨m, he⟩ hfuel
    (by
      rw [← hh]
      unfold directoryAt
      rw [(w now).read he, if_neg hhints]; simp)
    (by
      obtain ⟨t, -, -, k3⟩ := fp.cfg entity m he
      obtain ⟨m', h', hau⟩ := hs now t entity m he
      rw [k3]
      unfold directoryAt
      rw [((w t).cfg (issued := t) h').2.metadata, hau, if_pos hmd]; simp)
    (fun p hp => (fp.within w hs he ((ups p).1 hp) want M).1 (hcon p ((ups p).1 hp)))
    (fun p hp => (fp.within w hs he ((ups p).1 hp) want M).2.1 (hpol p ((ups p).1 hp)))
  exact ⟨out, fp, g1, g2, fun p hp => g3 p ((ups p).2 hp), fun tc htc => by
    obtain ⟨p, hp, hr⟩ := g4 tc htc
    exact ⟨p, (ups p).1 hp, hr, (fp.within w hs he ((ups p).1 hp) want M).2.2 _ hr.metadata⟩⟩

/-- C133 for federations whose authorities register only keys, statements being made anew whenever they are asked for: up to a day (less the allowed delta) after the first collection, every member
below an anchor is resolved, with a chain for each way up to an anchor and no other, of statements issued since then, all with all the metadata it declares. -/
theorem C133_reissued_keys_partial (V : Env) (J : Jose) (members : Int → String → Option Member) (host : Val → Option String) (t0 now : Int) (st : State) (h : List Collect.FRun)
    (stopAt entity : String) (m : Member) (rank : String → Nat)
    (w : ∀ t, WellKept J V.L (members t) host st.jar rank) (hs : SameMembers members) (hW : V.W = worldAt J members host now)
    (hst : st.coll = Collect.runAll V.L.toCrypto V.P (h.map fun r => ⟨worldAt J members host r.time, r.fuel, r.entity, r.stopAt⟩))
    (ht : ∀ r ∈ h, t0 ≤ r.time ∧ r.time ≤ now) (h0 : t0 ≤ now) (hd : 0 ≤ V.P.delta) (hnow : now < t0 + 86400 - V.P.delta) (hstop : Stop (members now) stopAt)
    (he : members now entity = some m) (hfuel : rank entity < V.fuel) (hhints : strs m.authority.hints ≠ []) (hmd : m.authority.metadata.truthy = true)
    (hurl : ∀ e m, members now e = some m → Constraints.IsUrl e)
    (honly : ∀ e m a ma reg, members now e = some m → a ∈ strs m.authority.hints → members now a = some ma → ma.authority.subordinate.get? e = some reg → OnlyKeys ma.authority e reg) :
    ∃ D out, FromPeriod J members t0 now D ∧ (getVerified V st entity stopAt).1 = .ok out ∧ out ≠ [] ∧
      (∀ p, Up (directoryAt J members now) entity p → ∃ tc ∈ out, tc.chain = (stmtsOf D entity p ++ [D.cfg entity]).map some ∧ p.getLast? = some tc.anchor) ∧ ∀ tc ∈ out,
      (∃ p, Up (directoryAt J members now) entity p ∧ tc.chain = (stmtsOf D entity p ++ [D.cfg entity]).map some ∧ p.getLast? = some tc.anchor) ∧
      ∀ t md, (objs m.authority.metadata).get? t = some md → ∃ got, tc.metadata.get? t = some (.obj got) ∧ ∀ c v, md.get? c = some v → Dict.get? got c = some v := by
  obtain ⟨hcon, hpol, rule⟩ := keys_only V.L J (members now) host st.jar now now V.P stopAt entity m rank (w now) (by omega) hstop he hurl honly
  obtain ⟨D, out, g1, g2, g3, g4, g5⟩ := C133_reissued_partial V J members host t0 now st h stopAt entity m rank (fun _ _ => .one .null .null) (fun _ => []) w hs hW hst ht h0 hd hnow hstop he hfuel
    hhints hmd hcon hpol
  refine ⟨D, out, g1, g2, g3, fun p hp => ?_, fun tc htc => ?_⟩
  · obtain ⟨tc, htc, hr⟩ := g4 p hp
    exact ⟨tc, htc, hr.chain, hr.anchor⟩
  · obtain ⟨p, hp, hr, hdec⟩ := g5 tc htc
    refine ⟨⟨p, hp, hr.chain, hr.anchor⟩, fun t md hmdt => ?_⟩
    obtain ⟨got, k1, -, k3⟩ := hdec t md (by
      unfold directoryAt
      rw [(w now).md he]; exact hmdt)
    refine ⟨got, k1, fun c v hc => k3 c v hc ?_⟩
    intro q hq
    obtain ⟨s, hs', rfl⟩ := List.mem_map.1 hq
    rw [(rule p hp s hs' t).1]
    simp [Dict.keys]

/-! ### Later -/

/-- C133 without a limit of time: members of a federation that all run this software, whose authorities have registered nothing but their keys, are resolved whatever was collected before. -/
def C133_full : Prop :=
  ∀ (V : Env) (J : Jose) (members : Int → String → Option Member) (host : Val → Option String) (now : Int) (st : State) (h : List Collect.FRun) (entity : String) (m : Member) (rank : String → Nat),
    (∀ t, WellKept J V.L (members t) host st.jar rank) → SameMembers members → V.W = worldAt J members host now →
    st.coll = Collect.runAll V.L.toCrypto V.P (h.map fun r => ⟨worldAt J members host r.time, r.fuel, r.entity, r.stopAt⟩) →
    (h.Pairwise fun a b => a.time ≤ b.time) → (∀ r ∈ h, r.time ≤ now) → 0 ≤ V.P.delta → V.P.delta < 86400 → members now "" = none → members now entity = some m → rank entity < V.fuel →
    strs m.authority.hints ≠ [] → m.authority.metadata.truthy = true → (∀ e m, members now e = some m → Constraints.IsUrl e) →
    (∀ e m a ma reg, members now e = some m → a ∈ strs m.authority.hints → members now a = some ma → ma.authority.subordinate.get? e = some reg → OnlyKeys ma.authority e reg) →
    ∃ out, (getVerified V st entity "").1 = .ok out ∧ out ≠ []

namespace Ex
/-- `im` is collected, and `leaf`, below it, hours later. -/
def history133 : List Collect.FRun := [⟨0, 10, "https://im", ""⟩, ⟨10000, 10, "https://leaf", ""⟩]
def members133 (_ : Int) : String → Option Member := member133 []
def later133 (h : List Collect.FRun) : State :=
  { st with coll := Collect.runAll L.toCrypto { anchors := ["https://ta"] } (h.map fun r => ⟨worldAt J members133 host133 r.time, r.fuel, r.entity, r.stopAt⟩) }
end Ex

/-- In the afternoon `leaf` is resolved, although what is cached of it and of `im` dates from different times. -/
example : ∃ D out, FromPeriod Ex.J Ex.members133 0 50000 D ∧
    (getVerified (Ex.env (worldAt Ex.J Ex.members133 Ex.host133 50000)) (Ex.later133 Ex.history133) "https://leaf" "").1 = .ok out ∧ out ≠ [] := by
  obtain ⟨D, out, h1, h2, h3, -⟩ := C133_reissued_keys_partial (Ex.env (worldAt Ex.J Ex.members133 Ex.host133 50000)) Ex.J Ex.members133 Ex.host133 0 50000 (Ex.later133 Ex.history133) Ex.history133 ""
    "https://leaf" Ex.mLeaf Ex.rank109 (fun _ => Ex.wellKept133 [] (.inl rfl)) (fun _ _ _ m hm => ⟨m, hm, rfl⟩) rfl rfl (by decide) (by decide) (by decide) (by decide) (.none rfl) rfl (by decide) (by decide) rfl
    Ex.url133 Ex.onlyKeys133
  exact ⟨D, out, h1, h2, h3⟩

/-- At the end of the day the statement about `leaf` is still in the cache, while the configuration of `im`, collected earlier, is about to expire and is dropped: TypeError. -/
theorem C133_next_day_violation : ¬ C133_full := by
  intro h
  obtain ⟨out, h1, -⟩ := h (Ex.env (worldAt Ex.J Ex.members133 Ex.host133 86200)) Ex.J Ex.members133 Ex.host133 86200 (Ex.later133 Ex.history133) Ex.history133 "https://leaf" Ex.mLeaf Ex.rank109
    (fun _ => Ex.wellKept133 [] (.inl rfl)) (fun _ _ _ m hm => ⟨m, hm, rfl⟩) rfl rfl (by decide) (by decide) (by decide) (by decide) rfl rfl (by decide) (by decide) rfl Ex.url133 Ex.onlyKeys133
  have : (getVerified (Ex.env (worldAt Ex.J Ex.members133 Ex.host133 86200)) (Ex.later133 Ex.history133) "https://leaf" "").1 = .error .typeError := by decide +kernel
  rw [this] at h1
  cases h1

end Fed.Chains
