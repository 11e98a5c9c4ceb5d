import Verif.Config.Files
/-
Properties C137, C138: values in files.
-/
namespace Fed.Config
open Fed

/-- A step into a value. -/
inductive Step
  | key (k : String)
  | idx (i : Nat)
deriving DecidableEq, Repr

/-- The value at a place. -/
def valAt : Val → List Step → Option Val
  | v, [] => some v
  | .obj d, .key k :: p => (Dict.get? d k).bind (valAt · p)
  | .arr xs, .idx i :: p => xs[i]?.bind (valAt · p)
  | _, _ :: _ => none

/-- What a value naming a file stands for. -/
def stands (fs : String → Option Content) (s : String) : Option Val :=
  match fs (path s) with
  | none => some .null
  | some c => if endsWith s ".json" then c.json.toOption else if endsWith s ".py" then some (.str c.text) else none

/-! ## C137 -/

/-- C137 in full: wherever a configuration names a file, there is the content of the file after loading (nothing, if there is no such file). -/
def C137_full : Prop := ∀ (fs : String → Option Content) (d d' : Dict Val) (p : List Step) (s : String),
  loadDict fs d = .ok d' → valAt (.obj d) p = some (.str s) → isFile s = true → valAt (.obj d') p = stands fs s

/-- C137 does not hold: names of files in lists are left as they are. -/
theorem C137_list_violation : ¬ C137_full := by
  intro h
  have := h (fun _ => some ⟨"x", .ok (.int 1)⟩) [("a", .arr [.str "file:x.json"])] [("a", .arr [.str "file:x.json"])] [.key "a", .idx 0] "file:x.json" (by rfl) (by rfl) (by decide)
  revert this
  rw [show stands (fun _ => some ⟨"x", .ok (.int 1)⟩) "file:x.json" = some (.int 1) from by simp [stands, show endsWith "file:x.json" ".json" = true from by decide, Except.toOption]]
  intro this
  cases this

/-- Nor is anything in lists of lists looked at. -/
theorem C137_nested_violation : ¬ C137_full := by
  intro h
  have := h (fun _ => some ⟨"x", .ok (.int 1)⟩) [("a", .arr [.arr [.obj [("b", .str "file:x.json")]]])] [("a", .arr [.arr [.obj [("b", .str "file:x.json")]]])]
    [.key "a", .idx 0, .idx 0, .key "b"] "file:x.json" (by rfl) (by rfl) (by decide)
  revert this
  rw [show stands (fun _ => some ⟨"x", .ok (.int 1)⟩) "file:x.json" = some (.int 1) from by simp [stands, show endsWith "file:x.json" ".json" = true from by decide, Except.toOption]]
  intro this
  cases this

/-- A place that is reached through dicts, and through lists only to dicts in them. -/
def Direct : List Step → Prop
  | [] => True
  | [.key _] => True
  | .key _ :: .idx _ :: .key k :: p => Direct (.key k :: p)
  | .key _ :: .key k :: p => Direct (.key k :: p)
  | _ => False

theorem loadDict_get? {fs : String → Option Content} : ∀ {d d' : Dict Val}, loadDict fs d = .ok d' → ∀ k,
    (Dict.get? d k = none → Dict.get? d' k = none) ∧ ∀ v, Dict.get? d k = some v → ∃ v', loadVal fs v = .ok v' ∧ Dict.get? d' k = some v'
  | [], d', h, k => by
    rw [loadDict] at h
    cases h
    exact ⟨fun _ => rfl, fun v hv => by cases hv⟩
  | (a, x) :: d, d', h, k => by
    rw [loadDict] at h
    split at h
    · cases h
    · rename_i x' hx
      split at h
      · cases h
      · rename_i d'' hd
        cases h
        obtain ⟨h1, h2⟩ := loadDict_get? hd k
        rw [Dict.get?_cons, Dict.get?_cons]
        split
        · refine ⟨fun h => (by cases h), fun v hv => ?_⟩
          cases hv
          exact ⟨x', hx, rfl⟩
        · exact ⟨h1, h2⟩

theorem loadList_get {fs : String → Option Content} : ∀ {xs xs' : List Val}, loadList fs xs = .ok xs' → ∀ i : Nat,
    (xs[i]? = none → xs'[i]? = none) ∧ ∀ v, xs[i]? = some v → ∃ v', loadElem fs v = .ok v' ∧ xs'[i]? = some v'
  | [], xs', h, i => by
    rw [loadList] at h
    cases h
    exact ⟨fun _ => rfl, fun v hv => by cases hv⟩
  | x :: xs, xs', h, i => by
    rw [loadList] at h
    split at h
    · cases h
    · rename_i x' hx
      split at h
      · cases h
      · rename_i xs'' hxs
        cases h
        cases i with
        | zero =>
          refine ⟨fun h => (by cases h), fun v hv => ?_⟩
          cases hv
          exact ⟨x', hx, rfl⟩
        | succ i => exact loadList_get hxs i

theorem importFile_stands {fs : String → Option Content} {s : String} {v : Val} (h : importFile fs s = .ok v) : stands fs s = some v := by
  unfold importFile at h
  unfold stands
  cases hf : fs (path s) with
  | none => rw [hf] at h; cases h; rfl
  | some c =>
    rw [hf] at h
    dsimp only at h ⊢
    by_cases h1 : endsWith s ".json" = true
    · rw [if_pos h1] at h ⊢
      rw [h]; rfl
    · rw [if_neg h1] at h ⊢
      by_cases h2 : endsWith s ".py" = true
      · rw [if_pos h2] at h ⊢
        cases h; rfl
      · rw [if_neg h2] at h; cases h

/-- C137, what holds: it does for places reached through dicts, and through lists only to dicts in them. -/
theorem C137_partial (fs : String → Option Content) (p : List Step) : ∀ (d d' : Dict Val) (s : String), loadDict fs d = .ok d' → valAt (.obj d) p = some (.str s) →
    isFile s = true → Direct p → valAt (.obj d') p = stands fs s := by
  induction hn : p.length using Nat.strongRecOn generalizing p with
  | _ n ih =>
  intro d d' s h hp hs hd
  match p, hd with
  | [], _ => cases hp
  | [.key k], _ =>
    simp only [valAt] at hp ⊢
    cases hk : Dict.get? d k with
    | none => rw [hk] at hp; cases hp
    | some v =>
      rw [hk] at hp
      simp only [Option.bind_some, valAt, Option.some.injEq] at hp
      subst hp
      obtain ⟨v', h1, h2⟩ := (loadDict_get? h k).2 _ hk
      rw [loadVal, if_pos hs] at h1
      rw [h2, importFile_stands h1]
      simp only [Option.bind_some, valAt]
  | .key a :: .key k :: p, hd =>
    have hd : Direct (.key k :: p) := hd
    simp only [valAt] at hp
    cases hk : Dict.get? d a with
    | none => rw [hk] at hp; cases hp
    | some v =>
      rw [hk, Option.bind_some] at hp
      obtain ⟨v', h1, h2⟩ := (loadDict_get? h a).2 _ hk
      cases v with
      | obj e =>
        rw [loadVal] at h1
        split at h1
        · cases h1
        · rename_i e' he
          cases h1
          have := ih (List.length (.key k :: p)) (by rw [← hn]; simp) (.key k :: p) rfl e e' s he hp hs hd
          rw [valAt, h2, Option.bind_some]
          exact this
      | _ => simp [valAt] at hp
  | .key a :: .idx i :: .key k :: p, hd =>
    have hd : Direct (.key k :: p) := hd
    rw [valAt] at hp
    cases hk : Dict.get? d a with
    | none => rw [hk] at hp; cases hp
    | some v =>
      rw [hk, Option.bind_some] at hp
      obtain ⟨v', h1, h2⟩ := (loadDict_get? h a).2 _ hk
      cases v with
      | arr xs =>
        rw [loadVal] at h1
        split at h1
        · cases h1
        · rename_i xs' hxs
          cases h1
          rw [valAt] at hp
          cases hi : xs[i]? with
          | none => rw [hi] at hp; cases hp
          | some x =>
            rw [hi, Option.bind_some] at hp
            obtain ⟨x', h3, h4⟩ := (loadList_get hxs i).2 _ hi
            cases x with
            | obj e =>
              rw [loadElem] at h3
              split at h3
              · cases h3
              · rename_i e' he
                cases h3
                have := ih (List.length (.key k :: p)) (by rw [← hn]; simp) (.key k :: p) rfl e e' s he hp hs hd
                rw [valAt, h2, Option.bind_some, valAt, h4, Option.bind_some]
                exact this
            | _ => simp [valAt] at hp
      | _ => simp [valAt] at hp

namespace Ex
def disk : String → Option Content := fun p => if p = "keys.json" then some ⟨"{}", .ok (.obj [("keys", .arr [])])⟩ else if p = "x.py" then some ⟨"pass", .error .valueError⟩ else none
def conf : Dict Val := [("id", .str "https://a"), ("jwks", .str "file:keys.json"), ("parts", .arr [.obj [("code", .str "file:x.py")], .str "b"]), ("gone", .str "file:none.json")]
end Ex

example : ∃ d', loadDict Ex.disk Ex.conf = .ok d' ∧ Direct [.key "parts", .idx 0, .key "code"] ∧ valAt (.obj d') [.key "parts", .idx 0, .key "code"] = some (.str "pass") ∧
    valAt (.obj d') [.key "jwks"] = some (.obj [("keys", .arr [])]) ∧ valAt (.obj d') [.key "gone"] = some .null := by
  refine ⟨[("id", .str "https://a"), ("jwks", .obj [("keys", .arr [])]), ("parts", .arr [.obj [("code", .str "pass")], .str "b"]), ("gone", .null)], by rfl, ?_, by rfl, by rfl, by rfl⟩
  simp [Direct]

/-! ## C138 -/

/-- No part of the way names a file. -/
def Clear (v : Val) (p : List Step) : Prop := ∀ q, q <+: p → ∀ s, valAt v q = some (.str s) → isFile s = false

/-- The same as far as its own kind goes: equal for what has no parts, same keys in the same order for dicts, same length for lists. -/
def SameShape : Val → Val → Prop
  | .obj d, .obj d' => d.map (·.1) = d'.map (·.1)
  | .arr xs, .arr xs' => xs.length = xs'.length
  | .obj _, _ => False
  | .arr _, _ => False
  | v, v' => v' = v

theorem loadDict_keys {fs : String → Option Content} : ∀ {d d' : List (String × Val)}, loadDict fs d = .ok d' → d.map (·.1) = d'.map (·.1)
  | [], d', h => by rw [loadDict] at h; cases h; rfl
  | (a, x) :: d, d', h => by
    rw [loadDict] at h
    split at h
    · cases h
    · split at h
      · cases h
      · rename_i hd
        cases h
        simp [loadDict_keys hd]

theorem loadList_length {fs : String → Option Content} : ∀ {xs xs' : List Val}, loadList fs xs = .ok xs' → xs.length = xs'.length
  | [], d', h => by rw [loadList] at h; cases h; rfl
  | x :: xs, d', h => by
    rw [loadList] at h
    split at h
    · cases h
    · split at h
      · cases h
      · rename_i hd
        cases h
        simp [loadList_length hd]

theorem sameShape_refl (v : Val) : SameShape v v := by
  cases v <;> simp [SameShape]

/-- Loading a dict, a value or an element. -/
inductive Loaded (fs : String → Option Content) : Val → Val → Prop
  | val {v v'} : loadVal fs v = .ok v' → Loaded fs v v'
  | elem {v v'} : loadElem fs v = .ok v' → Loaded fs v v'
  | same {v} : Loaded fs v v

theorem Loaded.shape {fs : String → Option Content} {v v' : Val} (h : Loaded fs v v') (hs : ∀ s, v = .str s → isFile s = false) : SameShape v v' := by
  cases h with
  | same => exact sameShape_refl v
  | val h =>
    cases v with
    | obj d =>
      rw [loadVal] at h
      split at h
      · cases h
      · rename_i hd; cases h; exact loadDict_keys hd
    | arr xs =>
      rw [loadVal] at h
      split at h
      · cases h
      · rename_i hd; cases h; exact loadList_length hd
    | str s =>
      rw [loadVal, if_neg (by simp [hs s rfl])] at h
      cases h
      rfl
    | _ => rw [loadVal] at h; cases h; rfl
  | elem h =>
    cases v with
    | obj d =>
      rw [loadElem] at h
      split at h
      · cases h
      · rename_i hd; cases h; exact loadDict_keys hd
    | arr xs => rw [loadElem] at h; cases h; rfl
    | _ => rw [loadElem] at h; cases h; rfl

theorem Loaded.step {fs : String → Option Content} {v v' : Val} (h : Loaded fs v v') (x : Step) :
    (valAt v [x] = none → (∀ s, v = .str s → isFile s = false) → valAt v' [x] = none) ∧ ∀ w, valAt v [x] = some w → ∃ w', valAt v' [x] = some w' ∧ Loaded fs w w' := by
  cases h with
  | same => exact ⟨fun h _ => h, fun w hw => ⟨w, hw, .same⟩⟩
  | val h =>
    cases v with
    | obj d =>
      rw [loadVal] at h
      split at h
      · cases h
      · rename_i d' hd
        cases h
        cases x with
        | idx i => exact ⟨fun _ _ => rfl, fun w hw => by cases hw⟩
        | key k =>
          obtain ⟨h1, h2⟩ := loadDict_get? hd k
          simp only [valAt]
          cases hk : Dict.get? d k with
          | none => rw [h1 hk]; exact ⟨fun _ _ => rfl, fun w hw => by cases hw⟩
          | some w =>
            obtain ⟨w', h3, h4⟩ := h2 w hk
            rw [h4]
            refine ⟨fun h => (by cases h), fun u hu => ?_⟩
            simp only [Option.bind_some, valAt, Option.some.injEq] at hu
            subst hu
            exact ⟨w', by simp only [Option.bind_some, valAt], .val h3⟩
    | arr xs =>
      rw [loadVal] at h
      split at h
      · cases h
      · rename_i xs' hd
        cases h
        cases x with
        | key k => exact ⟨fun _ _ => rfl, fun w hw => by cases hw⟩
        | idx i =>
          obtain ⟨h1, h2⟩ := loadList_get hd i
          simp only [valAt]
          cases hk : xs[i]? with
          | none => rw [h1 hk]; exact ⟨fun _ _ => rfl, fun w hw => by cases hw⟩
          | some w =>
            obtain ⟨w', h3, h4⟩ := h2 w hk
            rw [h4]
            refine ⟨fun h => (by cases h), fun u hu => ?_⟩
            simp only [Option.bind_some, valAt, Option.some.injEq] at hu
            subst hu
            exact ⟨w', by simp only [Option.bind_some, valAt], .elem h3⟩
    | str s =>
      refine ⟨fun _ hs => ?_, fun w hw => by cases x <;> cases hw⟩
      rw [loadVal, if_neg (by simp [hs s rfl])] at h
      cases h
      cases x <;> rfl
    | _ => rw [loadVal] at h; cases h; exact ⟨fun h _ => h, fun w hw => ⟨w, hw, .same⟩⟩
  | elem h =>
    cases v with
    | obj d =>
      rw [loadElem] at h
      split at h
      · cases h
      · rename_i d' hd
        cases h
        cases x with
        | idx i => exact ⟨fun _ _ => rfl, fun w hw => by cases hw⟩
        | key k =>
          obtain ⟨h1, h2⟩ := loadDict_get? hd k
          simp only [valAt]
          cases hk : Dict.get? d k with
          | none => rw [h1 hk]; exact ⟨fun _ _ => rfl, fun w hw => by cases hw⟩
          | some w =>
            obtain ⟨w', h3, h4⟩ := h2 w hk
            rw [h4]
            refine ⟨fun h => (by cases h), fun u hu => ?_⟩
            simp only [Option.bind_some, valAt, Option.some.injEq] at hu
            subst hu
            exact ⟨w', by simp only [Option.bind_some, valAt], .val h3⟩
    | _ => rw [loadElem] at h; cases h; exact ⟨fun h _ => h, fun w hw => ⟨w, hw, .same⟩⟩

theorem valAt_cons (v : Val) (x : Step) (p : List Step) : valAt v (x :: p) = (valAt v [x]).bind (valAt · p) := by
  cases v with
  | obj d => cases x <;> simp only [valAt] <;> first | rfl | (cases Dict.get? d _ <;> rfl)
  | arr xs => cases x <;> simp only [valAt] <;> first | rfl | (rename_i i; cases xs[i]? <;> rfl)
  | _ => cases x <;> rfl

theorem Loaded.at {fs : String → Option Content} : ∀ {p : List Step} {v v' : Val}, Loaded fs v v' → Clear v p →
    (valAt v p = none → valAt v' p = none) ∧ ∀ w, valAt v p = some w → ∃ w', valAt v' p = some w' ∧ SameShape w w'
  | [], v, v', h, hc => by
    refine ⟨fun h => (by cases h), fun w hw => ?_⟩
    cases hw
    exact ⟨v', rfl, h.shape fun s hs => hc [] (List.prefix_refl _) s (by rw [hs]; rfl)⟩
  | x :: p, v, v', h, hc => by
    obtain ⟨h1, h2⟩ := h.step x
    rw [valAt_cons v, valAt_cons v']
    cases hx : valAt v [x] with
    | none =>
      rw [h1 hx fun s hs => hc [] List.nil_prefix s (by rw [hs]; rfl)]
      exact ⟨fun _ => rfl, fun w hw => by cases hw⟩
    | some u =>
      obtain ⟨u', h3, h4⟩ := h2 u hx
      rw [h3]
      refine h4.at (p := p) fun q hq s hs => hc (x :: q) (by simpa using hq) s ?_
      rw [valAt_cons, hx]
      exact hs

/-- C138: at every place on the way to which no file is named, the configuration is what it was: nothing is there that was not, nothing is missing, what has no parts is equal, dicts
have the same keys in the same order and lists the same length. -/
theorem C138_unchanged (fs : String → Option Content) (d d' : Dict Val) (p : List Step) (h : loadDict fs d = .ok d') (hc : Clear (.obj d) p) :
    (valAt (.obj d) p = none → valAt (.obj d') p = none) ∧ ∀ w, valAt (.obj d) p = some w → ∃ w', valAt (.obj d') p = some w' ∧ SameShape w w' :=
  (Loaded.val (v := .obj d) (v' := .obj d') (by rw [loadVal, h])).at hc

/-- C138: if every file there is can be used under the names it has in configurations, loading succeeds. -/
theorem C138_ok (fs : String → Option Content) (h : ∀ s, isFile s = true → ∃ v, importFile fs s = .ok v) : ∀ d : Dict Val, ∃ d', loadDict fs d = .ok d' := by
  have hv : ∀ n, ∀ v : Val, sizeOf v ≤ n → (∃ v', loadVal fs v = .ok v') ∧ ∃ v', loadElem fs v = .ok v' := by
    intro n
    induction n with
    | zero => intro v hv; cases v <;> simp at hv <;> omega
    | succ n ih =>
      intro v hn
      have hd : ∀ d : List (String × Val), sizeOf d ≤ n → ∃ d', loadDict fs d = .ok d' := by
        intro d
        induction d with
        | nil => intro _; exact ⟨[], by rw [loadDict]⟩
        | cons x d ihd =>
          intro hs
          obtain ⟨k, v⟩ := x
          simp only [List.cons.sizeOf_spec, Prod.mk.sizeOf_spec] at hs
          obtain ⟨⟨v', h1⟩, -⟩ := ih v (by omega)
          obtain ⟨d', h2⟩ := ihd (by omega)
          exact ⟨(k, v') :: d', by rw [loadDict, h1, h2]⟩
      have hl : ∀ xs : List Val, sizeOf xs ≤ n → ∃ xs', loadList fs xs = .ok xs' := by
        intro xs
        induction xs with
        | nil => intro _; exact ⟨[], by rw [loadList]⟩
        | cons x xs ihd =>
          intro hs
          simp only [List.cons.sizeOf_spec] at hs
          obtain ⟨-, ⟨x', h1⟩⟩ := ih x (by omega)
          obtain ⟨xs', h2⟩ := ihd (by omega)
          exact ⟨x' :: xs', by rw [loadList, h1, h2]⟩
      cases v with
      | obj d =>
        simp only [Val.obj.sizeOf_spec] at hn
        obtain ⟨d', h1⟩ := hd d (by omega)
        exact ⟨⟨_, by rw [loadVal, h1]⟩, ⟨_, by rw [loadElem, h1]⟩⟩
      | arr xs =>
        simp only [Val.arr.sizeOf_spec] at hn
        obtain ⟨d', h1⟩ := hl xs (by omega)
        exact ⟨⟨_, by rw [loadVal, h1]⟩, ⟨_, by rw [loadElem]⟩⟩
      | str s =>
        refine ⟨?_, ⟨_, by rw [loadElem]⟩⟩
        rw [loadVal]
        split
        · rename_i hf
          exact h s hf
        · exact ⟨_, rfl⟩
      | _ => exact ⟨⟨_, by rw [loadVal]⟩, ⟨_, by rw [loadElem]⟩⟩
  intro d
  obtain ⟨⟨v', h1⟩, -⟩ := hv _ (.obj d) (Nat.le_refl _)
  rw [loadVal] at h1
  split at h1
  · cases h1
  · rename_i d' hd
    exact ⟨d', hd⟩

example : ∀ s, isFile s = true → ∃ v, importFile (fun p => if p = "keys.json" then some ⟨"{}", .ok (.obj [])⟩ else none) s = .ok v := by
  intro s hs
  unfold importFile
  by_cases h : path s = "keys.json"
  · have h1 : s.toList.drop 5 = "keys.json".toList := by
      rw [← h, path]
      simp
    have h2 : endsWith s ".json" = true := by
      unfold endsWith
      rw [List.isSuffixOf_iff_suffix]
      exact List.IsSuffix.trans (l₂ := s.toList.drop 5) (by rw [h1]; exact ⟨"keys".toList, by decide⟩) (List.drop_suffix 5 s.toList)
    simp [h, h2]
  · simp [h]

example : Clear (.obj Ex.conf) [.key "parts", .idx 1] := by
  intro q hq s hs
  match q, hq with
  | [], _ => cases hs
  | [_], hq =>
    simp at hq
    subst hq
    cases hs
  | [_, _], hq =>
    simp at hq
    obtain ⟨rfl, rfl⟩ := hq
    cases hs
    decide
  | _ :: _ :: _ :: _, hq => simp at hq

end Fed.Config
