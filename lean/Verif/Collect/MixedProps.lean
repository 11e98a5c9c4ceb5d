import Verif.Collect.Mixed
import Verif.Collect.CacheProps
import Verif.Collect.CollectorLemmas
/-
C159: the configuration the collector goes by is in force.
-/
namespace Fed.Collect.Mixed
open Fed Fed.Collect

/-- The configuration does not expire before `now` and the margin of the collector. -/
def InForce (P : Params) (now : Int) (j : Jws) : Prop := ∃ e, j.payload.exp = some e ∧ now < e - P.delta

/-- The collector finds `j` published as the configuration of `a`, signed with a key in it. -/
def Found (C : Crypto) (W : World) (a : String) (j : Jws) : Prop := W.config a = .ok (some j) ∧ selfVerify C W.now j = .ok j.payload

/-- `j` has come up as the configuration of `a`: the client was answered with it, or the collector found it. -/
def Seen (C : Crypto) (a : String) (j : Jws) (ev : Event) : Prop :=
  (ev = .answer j ∧ j.payload.iss = a) ∨ (∃ W, ev = .endpoint W a ∧ Found C W a j)

/-- The fetch endpoint a configuration names. -/
def Names (j : Jws) (ep : Val) : Prop := ∃ fe, j.payload.md.get? "federation_entity" = some fe ∧ fe.get? "federation_fetch_endpoint" = some ep

/-! ### lemmas -/

theorem sub_mono (delta now : Int) (db : Cache) (k q : String) (v : Entry) (h : (subscript delta now db k).2.get? q = some v) : db.get? q = some v := by
  unfold subscript at h
  split at h
  · exact h
  · split at h
    · exact h
    · exact h
    · split at h
      · exact h
      · rw [get?_drop] at h
        split at h
        · cases h
        · exact h

theorem sub_ok (delta now : Int) (db : Cache) (k : String) (v : Entry) (h : (subscript delta now db k).1 = .ok (some v)) :
    db.get? k = some v ∧ ∀ j, v = .fetched j → ∃ e, j.payload.exp = some e ∧ now < e - delta := by
  unfold subscript at h
  split at h
  · cases h
  · rename_i w hw
    split at h
    · rename_i hx
      cases h
      refine ⟨hw, ?_⟩
      rintro j rfl
      cases hx
    · cases h
    · rename_i e hx
      split at h
      · rename_i hlt
        cases h
        refine ⟨hw, ?_⟩
        rintro j rfl
        exact ⟨e, Option.some.inj hx, hlt⟩
      · cases h

/-- An answer the client got stays. -/
theorem sub_answered (delta now : Int) (db : Cache) (k q : String) (j : Jws) (h : db.get? q = some (.answered j)) :
    (subscript delta now db k).2.get? q = some (.answered j) := by
  unfold subscript
  split
  · exact h
  · rename_i v hv
    split
    · exact h
    · exact h
    · rename_i e hx
      split
      · exact h
      · rw [get?_drop]
        by_cases hk : k = q
        · subst hk
          rw [h] at hv
          cases hv
          cases hx
        · rw [if_neg hk]
          exact h

theorem sub_self (delta now : Int) (db : Cache) (k : String) (j : Jws) (h : db.get? k = some (.answered j)) :
    subscript delta now db k = (.ok (some (.answered j)), db) := by
  unfold subscript
  rw [h]
  rfl

theorem names_of {j : Jws} {ep : Option Val} (h : getFetchEndpoint j.payload = .ok ep) (v : Val) (hv : ep = some v) : Names j v := by
  unfold getFetchEndpoint at h
  split at h
  · cases h
  · rename_i fe hfe
    cases h
    exact ⟨fe, hfe, hv⟩

theorem refresh_ok (C : Crypto) (W : World) (db : Cache) (a : String) (ep : Option Val) (h : (refresh C W db a).1 = .ok ep) :
    ∃ j, Found C W a j ∧ getFetchEndpoint j.payload = .ok ep := by
  unfold refresh at h
  split at h
  · cases h
  · cases h
  · rename_i j hj
    split at h
    · cases h
    · rename_i p hp
      have hpp := selfVerify_payload hp
      subst hpp
      split at h
      · cases h
      · rename_i ep' he
        cases h
        exact ⟨j, ⟨hj, hp⟩, he⟩

theorem refresh_get (C : Crypto) (W : World) (db : Cache) (a q : String) :
    (refresh C W db a).2.get? q = db.get? q ∨ (q = a ∧ ∃ j, Found C W a j ∧ (refresh C W db a).2.get? q = some (.fetched j)) := by
  unfold refresh
  split
  · exact .inl rfl
  · exact .inl rfl
  · rename_i j hj
    split
    · exact .inl rfl
    · rename_i p hp
      have hpp := selfVerify_payload hp
      subst hpp
      split
      · exact .inl rfl
      · by_cases hq : q = a
        · subst hq
          exact .inr ⟨rfl, j, ⟨hj, hp⟩, Dict.get?_set_self ..⟩
        · exact .inl (Dict.get?_set_ne _ _ (Ne.symm hq))

theorem endpoint_get (C : Crypto) (P : Params) (W : World) (db : Cache) (a q : String) (v : Entry) (h : (endpoint C P W db a).2.get? q = some v) :
    db.get? q = some v ∨ (q = a ∧ ∃ j, Found C W a j ∧ v = .fetched j) := by
  have hm := sub_mono P.delta W.now db a q v
  have hr : ∀ d : Cache, (d.get? q = some v → db.get? q = some v) → (refresh C W d a).2.get? q = some v → db.get? q = some v ∨ (q = a ∧ ∃ j, Found C W a j ∧ v = .fetched j) := by
    intro d hd hh
    rcases refresh_get C W d a q with h' | ⟨hq, j, hf, h'⟩
    · exact .inl (hd (h' ▸ hh))
    · rw [h'] at hh
      cases hh
      exact .inr ⟨hq, j, hf, rfl⟩
  unfold endpoint at h
  generalize subscript P.delta W.now db a = s at h hm
  obtain ⟨r, d⟩ := s
  cases r with
  | error e => exact .inl (hm h)
  | ok o =>
    cases o with
    | none => exact hr d hm h
    | some c =>
      simp only at h
      split at h
      · exact .inl (hm h)
      · split at h
        · exact .inl (hm h)
        · exact hr d hm h

theorem apply_get (C : Crypto) (P : Params) (db : Cache) (ev : Event) (q : String) (v : Entry) (h : (ev.apply C P db).get? q = some v) :
    db.get? q = some v ∨ (Seen C q v.jws ev ∧ (∀ j, v = .answered j → ev = .answer j ∧ j.payload.iss = q)) := by
  cases ev with
  | answer j =>
    simp only [Event.apply, answered] at h
    by_cases hq : j.payload.iss = q
    · subst hq
      rw [Dict.get?_set_self] at h
      cases h
      refine .inr ⟨.inl ⟨rfl, rfl⟩, ?_⟩
      intro j' hj
      cases hj
      exact ⟨rfl, rfl⟩
    · rw [Dict.get?_set_ne _ _ hq] at h
      exact .inl h
  | endpoint W a =>
    rcases endpoint_get C P W db a q v h with h' | ⟨hq, j, hf, hv⟩
    · exact .inl h'
    · subst hq hv
      exact .inr ⟨.inr ⟨W, rfl, hf⟩, nofun⟩
  | hints now a =>
    refine .inl (sub_mono P.delta now db a q v ?_)
    simp only [Event.apply, hints] at h
    generalize subscript P.delta now db a = s at h ⊢
    obtain ⟨r, d⟩ := s
    cases r <;> exact h

theorem fold_get (C : Crypto) (P : Params) (h : List Event) : ∀ (db : Cache) (q : String) (v : Entry), (h.foldl (fun c e => e.apply C P c) db).get? q = some v →
    db.get? q = some v ∨ ∃ ev ∈ h, Seen C q v.jws ev ∧ (∀ j, v = .answered j → ev = .answer j ∧ j.payload.iss = q) := by
  induction h with
  | nil => intro db q v hv; exact .inl hv
  | cons ev h ih =>
    intro db q v hv
    rcases ih _ q v hv with h' | ⟨ev', hm, hs⟩
    · rcases apply_get C P db ev q v h' with h'' | hs
      · exact .inl h''
      · exact .inr ⟨ev, by simp, hs⟩
    · exact .inr ⟨ev', by simp [hm], hs⟩

theorem run_get (C : Crypto) (P : Params) (h : List Event) (q : String) (v : Entry) (hv : (run C P h).get? q = some v) :
    ∃ ev ∈ h, Seen C q v.jws ev ∧ (∀ j, v = .answered j → ev = .answer j ∧ j.payload.iss = q) := by
  rcases fold_get C P h [] q v hv with h' | h'
  · cases h'
  · exact h'

/-! ## C159 -/

/-- C159 in full: the fetch endpoint the collector asks at is named in a configuration of the authority that is in force, or is the one published now. -/
def C159_full : Prop := ∀ (C : Crypto) (P : Params) (h : List Event) (W : World) (a : String) (ep : Val), (endpoint C P W (run C P h) a).1 = .ok (some ep) →
  ∃ j, Names j ep ∧ (Found C W a j ∨ (InForce P W.now j ∧ ∃ ev ∈ h, Seen C a j ev))

/-- C159, the endpoint, as long as the configurations the client was answered with for that authority are in force. Missing: older ones. -/
theorem C159_endpoint_partial (C : Crypto) (P : Params) (h : List Event) (W : World) (a : String) (ep : Val)
    (hcur : ∀ j, Event.answer j ∈ h → j.payload.iss = a → InForce P W.now j) (hep : (endpoint C P W (run C P h) a).1 = .ok (some ep)) :
    ∃ j, Names j ep ∧ (Found C W a j ∨ (InForce P W.now j ∧ ∃ ev ∈ h, Seen C a j ev)) := by
  have hr : ∀ d : Cache, (refresh C W d a).1 = .ok (some ep) → ∃ j, Names j ep ∧ (Found C W a j ∨ (InForce P W.now j ∧ ∃ ev ∈ h, Seen C a j ev)) := by
    intro d hd
    obtain ⟨j, hf, hj⟩ := refresh_ok C W d a _ hd
    exact ⟨j, names_of hj ep rfl, .inl hf⟩
  have hs := sub_ok P.delta W.now (run C P h) a
  unfold endpoint at hep
  generalize subscript P.delta W.now (run C P h) a = s at hep hs
  obtain ⟨r, d⟩ := s
  cases r with
  | error e => cases hep
  | ok o =>
    cases o with
    | none => exact hr d hep
    | some c =>
      simp only at hep
      split at hep
      · cases hep
      · rename_i ep' he
        split at hep
        · cases hep
          obtain ⟨hg, hx⟩ := hs c rfl
          obtain ⟨ev, hm, hseen, hans⟩ := run_get C P h a c hg
          refine ⟨c.jws, names_of he ep rfl, .inr ⟨?_, ev, hm, hseen⟩⟩
          cases c with
          | fetched j => exact hx j rfl
          | answered j =>
            obtain ⟨h1, h2⟩ := hans j rfl
            exact hcur j (h1 ▸ hm) h2
        · exact hr d hep

/-- C159, the way up, likewise: the authority hints followed from an authority are those of a configuration of it in force. -/
theorem C159_hints_partial (C : Crypto) (P : Params) (h : List Event) (now : Int) (a : String) (hs : List String)
    (hcur : ∀ j, Event.answer j ∈ h → j.payload.iss = a → InForce P now j) (hh : (hints P now (run C P h) a).1 = .ok (some hs)) :
    ∃ j, j.payload.hints = some hs ∧ InForce P now j ∧ ∃ ev ∈ h, Seen C a j ev := by
  have hsub := sub_ok P.delta now (run C P h) a
  unfold hints at hh
  generalize subscript P.delta now (run C P h) a = s at hh hsub
  obtain ⟨r, d⟩ := s
  cases r with
  | error e => cases hh
  | ok o =>
    cases o with
    | none => cases hh
    | some c =>
      simp only [Option.bind_some, Except.ok.injEq] at hh
      obtain ⟨hg, hx⟩ := hsub c rfl
      obtain ⟨ev, hm, hseen, hans⟩ := run_get C P h a c hg
      refine ⟨c.jws, hh, ?_, ev, hm, hseen⟩
      cases c with
      | fetched j => exact hx j rfl
      | answered j =>
        obtain ⟨h1, h2⟩ := hans j rfl
        exact hcur j (h1 ▸ hm) h2

/-- What is left of an answer: nothing but a further answer in the name of the same entity replaces it. -/
theorem stays (C : Crypto) (P : Params) (j : Jws) (v : Val) (hn : Names j v) (hv : v.truthy = true) (h : List Event) (hno : ∀ j', Event.answer j' ∈ h → j'.payload.iss ≠ j.payload.iss) :
    ∀ db : Cache, db.get? j.payload.iss = some (.answered j) → (h.foldl (fun c e => e.apply C P c) db).get? j.payload.iss = some (.answered j) := by
  induction h with
  | nil => exact fun db hdb => hdb
  | cons ev h ih =>
    intro db hdb
    refine ih (fun j' hj' => hno j' (by simp [hj'])) _ ?_
    cases ev with
    | answer j' =>
      have := hno j' (by simp)
      simp only [Event.apply, answered]
      rw [Dict.get?_set_ne _ _ this]
      exact hdb
    | endpoint W a =>
      simp only [Event.apply]
      by_cases ha : a = j.payload.iss
      · subst ha
        obtain ⟨fe, h1, h2⟩ := hn
        have hg : getFetchEndpoint j.payload = .ok (some v) := by
          unfold getFetchEndpoint
          rw [h1]
          simp only
          rw [h2]
        unfold endpoint
        rw [sub_self P.delta W.now db _ j hdb]
        simp only [Entry.jws]
        rw [hg]
        simp only [usableEndpoint, hv, if_true]
        exact hdb
      · have hd := sub_answered P.delta W.now db a _ j hdb
        have hr : ∀ d : Cache, d.get? j.payload.iss = some (.answered j) → (refresh C W d a).2.get? j.payload.iss = some (.answered j) := by
          intro d hd
          rcases refresh_get C W d a j.payload.iss with h' | ⟨hq, _⟩
          · rw [h']; exact hd
          · exact absurd hq.symm ha
        unfold endpoint
        generalize subscript P.delta W.now db a = s at hd ⊢
        obtain ⟨r, d⟩ := s
        cases r with
        | error e => exact hd
        | ok o =>
          cases o with
          | none => exact hr d hd
          | some c =>
            simp only
            split
            · exact hd
            · split
              · exact hd
              · exact hr d hd
    | hints now a =>
      have hd := sub_answered P.delta now db a _ j hdb
      simp only [Event.apply, hints]
      generalize subscript P.delta now db a = s at hd ⊢
      obtain ⟨r, d⟩ := s
      cases r <;> exact hd

/-- C159 for an authority the client has once asked for its configuration: from then on, whatever the time and whatever the authority publishes, the collector goes by the answer, until the client asks
again. -/
theorem C159_forever (C : Crypto) (P : Params) (j : Jws) (v : Val) (hn : Names j v) (hv : v.truthy = true) (before after : List Event)
    (hno : ∀ j', Event.answer j' ∈ after → j'.payload.iss ≠ j.payload.iss) :
    (∀ W, (endpoint C P W (run C P (before ++ .answer j :: after)) j.payload.iss).1 = .ok (some v)) ∧
    (∀ now, (hints P now (run C P (before ++ .answer j :: after)) j.payload.iss).1 = .ok j.payload.hints) := by
  have hg : (run C P (before ++ .answer j :: after)).get? j.payload.iss = some (.answered j) := by
    unfold run
    rw [List.foldl_append, List.foldl_cons]
    exact stays C P j v hn hv after hno _ (Dict.get?_set_self ..)
  refine ⟨?_, ?_⟩
  · intro W
    obtain ⟨fe, h1, h2⟩ := hn
    have hge : getFetchEndpoint j.payload = .ok (some v) := by
      unfold getFetchEndpoint
      rw [h1]
      simp only
      rw [h2]
    unfold endpoint
    rw [sub_self P.delta W.now _ _ j hg]
    simp only [Entry.jws]
    rw [hge]
    simp only [usableEndpoint, hv, if_true]
  · intro now
    unfold hints
    rw [sub_self P.delta now _ _ j hg]
    rfl

/-! ### an authority that has moved its fetch endpoint -/

def conf (exp : Int) (ep : String) (hs : List String) : Jws :=
  ⟨{ iss := "https://ia.org", sub := "https://ia.org", exp := some exp, jwks := some [1], hints := some hs, metadata := some [("federation_entity", [("federation_fetch_endpoint", .str ep)])] }, 0⟩
def oldConf : Jws := conf 1000 "https://ia.org/old" ["https://old.org"]
def newConf : Jws := conf 9000 "https://ia.org/new" ["https://new.org"]
def laterWorld : World where
  now := 5000
  config := fun _ => .ok (some newConf)
  fetch := fun _ _ _ => .error .missingPage
def plain : Crypto where
  usable := fun _ _ => true
  verifies := fun _ _ => true
  current := notExpired

example : Names oldConf (.str "https://ia.org/old") := ⟨[("federation_fetch_endpoint", .str "https://ia.org/old")], rfl, rfl⟩
example : (endpoint plain { anchors := [] } laterWorld (run plain { anchors := [] } [.answer newConf]) "https://ia.org").1 = .ok (some (.str "https://ia.org/new")) := by decide
example : (endpoint plain { anchors := [] } laterWorld [("https://ia.org", .fetched oldConf)] "https://ia.org").1 = .ok (some (.str "https://ia.org/new")) := by decide
example : InForce { anchors := [] } 5000 newConf := ⟨9000, rfl, by decide⟩
example : (hints { anchors := [] } 5000 (run plain { anchors := [] } [.endpoint laterWorld "https://ia.org"]) "https://ia.org").1 = .ok (some ["https://new.org"]) := by decide

/-- C159 does not hold: a configuration the client was answered with is used long after it has expired, though the authority publishes a new one with another endpoint. -/
theorem C159_violation : ¬ C159_full := by
  intro h
  have hn : Names oldConf (.str "https://ia.org/old") := ⟨[("federation_fetch_endpoint", .str "https://ia.org/old")], rfl, rfl⟩
  obtain ⟨j, ⟨fe, h1, h2⟩, hj⟩ := h plain { anchors := [] } [.answer oldConf] laterWorld oldConf.payload.iss (.str "https://ia.org/old")
    ((C159_forever plain { anchors := [] } oldConf _ hn (by decide) [] [] (by simp)).1 laterWorld)
  rcases hj with ⟨hf, _⟩ | ⟨⟨e, he, hlt⟩, ev, hev, hs⟩
  · have hj : j = newConf := by simpa [laterWorld] using hf.symm
    subst hj
    simp [newConf, conf, Payload.md, Dict.get?] at h1
    subst h1
    simp [Dict.get?] at h2
  · rw [List.mem_singleton] at hev
    subst hev
    rcases hs with ⟨hs, _⟩ | ⟨W, hW, _⟩
    · have hj : j = oldConf := by simpa using hs.symm
      subst hj
      simp [oldConf, conf] at he
      subst he
      simp [laterWorld] at hlt
    · simp at hW

end Fed.Collect.Mixed
