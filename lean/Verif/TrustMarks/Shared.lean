import Verif.TrustMarks.StoreProps
/-
C223: a store of issued trust marks in files (`FileDB`, /repo/src/fedservice/trust_mark_entity/__init__.py 8-91) that several processes use at the same time, as the workers of a web server do. `TrustMarks.Store` has the store for one process.
-/
namespace Fed.TrustMarks.Shared
open Fed Fed.TrustMarks

/-- What one `write` call puts at the end of a file: a part of the line for a mark, the `n`th. A line that fits in the buffer of the file object is one part. -/
abbrev Part := Info × Nat

/-- Where a process is. Between two turns anything may happen in other processes. -/
inductive Pc
  | off
  /-- In `FileDB.__init__` (10-16), with these items of the configuration to go; `touch` is the file found missing, which is about to be opened for writing. -/
  | starting (todo : List (String × String)) (touch : Option String)
  | idle
  /-- In `add` (18-22), with the file open for appending; parts from `next` on are still to be written. -/
  | writing (file : String) (m : Info) (next : Nat)
deriving DecidableEq, Repr

/-- The processes, which have the same configuration, and the files, which they share. `log` has the marks for which `add` has returned, in that order. -/
structure Sys where
  config : Dict String
  files : Dict (List Part)
  pc : Nat → Pc
  log : List Info := []

/-- What a process does next: get started, begin to add a mark, or go on with what it is doing. -/
inductive Act
  | start
  | add (m : Info)
  | go
deriving DecidableEq, Repr

/-- One process is somewhere else now. -/
def Sys.at (s : Sys) (i : Nat) (p : Pc) : Sys := { s with pc := fun k => if k = i then p else s.pc k }

/-- The contents of a file; nothing if it is not there. -/
def Sys.parts (s : Sys) (f : String) : List Part := (s.files.get? f).getD []

/-- The system after process `i` did one thing; `pieces` tells in how many parts a line is written. `os.path.exists` and opening a file for writing, which empties it, are two steps (13-15).
Opening a file for appending creates it (21). A mark with an id that is not configured is a KeyError, and nothing happens (19-21). -/
def step (pieces : Info → Nat) (s : Sys) (i : Nat) (a : Act) : Sys :=
  match a, s.pc i with
  | .start, .off => s.at i (.starting s.config none)
  | .go, .starting [] none => s.at i .idle
  | .go, .starting ((_, f) :: todo) none => s.at i (.starting todo (if s.files.has f then none else some f))
  | .go, .starting todo (some f) => { s with files := s.files.set f [] }.at i (.starting todo none)
  | .add m, .idle =>
    match s.config.get? m.id with
    | none => s
    | some f => { s with files := s.files.set f (s.parts f) }.at i (.writing f m 0)
  | .go, .writing f m n =>
    let s := { s with files := s.files.set f (s.parts f ++ [(m, n)]) }
    if n + 1 < pieces m then s.at i (.writing f m (n + 1)) else { s with log := s.log ++ [m] }.at i .idle
  | _, _ => s

/-- What happens in the order of the schedule. -/
def run (pieces : Info → Nat) (s : Sys) (ts : List (Nat × Act)) : Sys := ts.foldl (fun s t => step pieces s t.1 t.2) s

/-- The lines of a file, `acc` being the current one so far: the last part of each mark ends one. What is not the parts of one mark cannot be read back as JSON: `none`. -/
def linesFrom (pieces : Info → Nat) (acc : List Part) : List Part → List (Option Info)
  | [] => if acc.isEmpty then [] else [none]
  | p :: ps =>
    if p.2 + 1 < pieces p.1 then linesFrom pieces (acc ++ [p]) ps
    else (if acc ++ [p] = (List.range (p.2 + 1)).map fun n => (p.1, n) then some p.1 else none) :: linesFrom pieces [] ps

/-- The loop of `find` (36-46), last line first; a line that cannot be read is a ValueError (`json.loads`, 37). -/
def findLines (now : Int) (sub : String) (iat : Int) : List (Option Info) → Except PyErr Bool
  | [] => .ok false
  | none :: _ => .error .valueError
  | some m :: ms =>
    match m.exp with
    | some e => if now > e then .ok false else if fmatch sub iat m then .ok true else findLines now sub iat ms
    | none => if fmatch sub iat m then .ok true else findLines now sub iat ms

/-- `FileDB.find` (33-46) in any of the processes. A file that is not there is a FileNotFoundError. Simplification: a file is read at one moment. -/
def find (pieces : Info → Nat) (s : Sys) (now : Int) (id sub : String) (iat : Int) : Except PyErr Bool :=
  match s.config.get? id with
  | none => .error .keyError
  | some f =>
    match s.files.get? f with
    | none => .error .otherError
    | some ps => findLines now sub iat (linesFrom pieces [] ps).reverse

/-- No process has been started. -/
def fresh (config : Dict String) (files : Dict (List Part)) : Sys := { config := config, files := files, pc := fun _ => .off }

/-- All parts of the line for a mark. -/
def line (pieces : Info → Nat) (m : Info) : List Part := (List.range (pieces m)).map fun n => (m, n)

/-- The files of a store as one process has left them. -/
def whole (pieces : Info → Nat) (files : Dict (List Info)) : Dict (List Part) := files.map fun x => (x.1, x.2.flatMap (line pieces))

/-- C223 in full: whatever processes do at the same time, a process that has been started finds what it would find if the marks had been added one after the other. -/
def C223_full : Prop :=
  ∀ (pieces : Info → Nat) (config : Dict String) (files : Dict (List Info)) (ts : List (Nat × Act)) (i : Nat) (now : Int) (id sub : String) (iat : Int), (∀ m, 0 < pieces m) →
    let s := run pieces (fresh config (whole pieces files)) ts
    s.pc i = .idle → find pieces s now id sub iat = (addAll ⟨config, files⟩ s.log).find now id sub iat

/-! ### Files that are there -/

section
variable (pieces : Info → Nat)

theorem linesFrom_line (m : Info) (rest : List Part) : ∀ (k j : Nat), j + (k + 1) = pieces m →
    linesFrom pieces ((List.range j).map fun n => (m, n)) ((List.range' j (k + 1)).map (fun n => (m, n)) ++ rest) = some m :: linesFrom pieces [] rest
  | 0, j, h => by
    have h1 : ¬ j + 1 < pieces m := by omega
    simp [List.range'_succ, linesFrom, h1, List.range_succ]
  | k + 1, j, h => by
    have h1 : j + 1 < pieces m := by omega
    have ih := linesFrom_line m rest k (j + 1) (by omega)
    rw [List.range_succ, List.map_append] at ih
    rw [List.range'_succ, List.map_cons, List.cons_append, linesFrom, if_pos h1]
    exact ih

theorem linesFrom_whole (hp : ∀ m, 0 < pieces m) : ∀ (ms : List Info), linesFrom pieces [] (ms.flatMap (line pieces)) = ms.map some
  | [] => rfl
  | m :: ms => by
    obtain ⟨k, hk⟩ : ∃ k, pieces m = k + 1 := ⟨pieces m - 1, by have := hp m; omega⟩
    have h := linesFrom_line pieces m (ms.flatMap (line pieces)) k 0 (by omega)
    rw [linesFrom_whole hp ms] at h
    rw [List.flatMap_cons, List.map_cons, ← h, line, hk, List.range_eq_range']
    rfl

theorem findLines_some (now : Int) (sub : String) (iat : Int) : ∀ (ms : List Info), findLines now sub iat (ms.map some) = .ok (findLoop now sub iat ms)
  | [] => rfl
  | m :: ms => by
    have ih := findLines_some now sub iat ms
    simp only [List.map_cons, findLines, findLoop]
    cases m.exp with
    | none => simp only; split <;> simp [ih]
    | some e => simp only; split; rfl; split <;> simp [ih]

/-- Nothing but whole lines in the files, which are all there; the lines are those of the marks added so far. -/
structure Inv (config : Dict String) (files : Dict (List Info)) (s : Sys) : Prop where
  same_config : s.config = config
  there : ∀ x ∈ config, Dict.has s.files x.2 = true
  same : ∀ f, s.parts f = ((addAll ⟨config, files⟩ s.log).lines f).flatMap (line pieces)
  pcs : ∀ i, (∃ todo, (∀ x ∈ todo, x ∈ config) ∧ s.pc i = .starting todo none) ∨ s.pc i = .off ∨ s.pc i = .idle ∨ ∃ f m, s.pc i = .writing f m 0 ∧ config.get? m.id = some f ∧ pieces m = 1

theorem has_set {d : Dict α} {k q : String} {v : α} (h : Dict.has d q = true) : Dict.has (d.set k v) q = true := by
  simp only [Dict.has, Dict.get?_set] at h ⊢
  split <;> simp [h]

theorem parts_set (s : Sys) (f q : String) (v : List Part) : Sys.parts { s with files := s.files.set f v } q = if f = q then v else s.parts q := by
  simp only [Sys.parts, Dict.get?_set]
  split <;> rfl

theorem addAll_snoc (db : FileDB) (ms : List Info) (m : Info) : addAll db (ms ++ [m]) = ((addAll db ms).add m).2 := by
  simp [addAll, List.foldl_append]

theorem Inv.at {config : Dict String} {files : Dict (List Info)} {s : Sys} (h : Inv pieces config files s) {i : Nat} {p : Pc}
    (hp : (∃ todo, (∀ x ∈ todo, x ∈ config) ∧ p = .starting todo none) ∨ p = .off ∨ p = .idle ∨ ∃ f m, p = .writing f m 0 ∧ config.get? m.id = some f ∧ pieces m = 1) :
    Inv pieces config files (s.at i p) where
  same_config := h.same_config
  there := h.there
  same := h.same
  pcs k := by
    by_cases hk : k = i
    · simp only [Sys.at, hk, if_true]; exact hp
    · simp only [Sys.at, hk, if_false]; exact h.pcs k

theorem Inv.step {config : Dict String} {files : Dict (List Info)} {s : Sys} (h : Inv pieces config files s) (i : Nat) (a : Act) (ha : ∀ m, a = .add m → pieces m = 1) :
    Inv pieces config files (step pieces s i a) := by
  have hpc := h.pcs i
  unfold Shared.step
  split
  case h_1 => exact h.at pieces (.inl ⟨_, fun x hx => hx, by rw [h.same_config]⟩)
  case h_2 => exact h.at pieces (.inr (.inr (.inl rfl)))
  case h_3 id f todo e =>
    rw [e] at hpc
    rcases hpc with ⟨todo', ht, e2⟩ | e2 | e2 | ⟨_, _, e2, _⟩ <;> cases e2
    rw [h.there (id, f) (ht _ (by simp))]
    exact h.at pieces (.inl ⟨_, fun x hx => ht x (by simp [hx]), rfl⟩)
  case h_4 e =>
    rw [e] at hpc
    rcases hpc with ⟨todo', ht, e2⟩ | e2 | e2 | ⟨_, _, e2, _⟩ <;> cases e2
  case h_5 m e =>
    split
    case h_1 => exact h
    case h_2 f hf =>
      rw [h.same_config] at hf
      have h2 : Inv pieces config files { s with files := s.files.set f (s.parts f) } := {
        same_config := h.same_config
        there := fun x hx => has_set (h.there x hx)
        same := fun q => by
          rw [parts_set]
          split
          case isTrue e => rw [e]; exact h.same q
          case isFalse => exact h.same q
        pcs := h.pcs }
      exact h2.at pieces (.inr (.inr (.inr ⟨f, m, rfl, hf, ha m rfl⟩)))
  case h_6 f m n e =>
    rw [e] at hpc
    rcases hpc with ⟨todo', ht, e2⟩ | e2 | e2 | ⟨f', m', e2, hf, h1⟩ <;> cases e2
    simp only [h1, Nat.lt_irrefl, if_false]
    have h2 : Inv pieces config files { s with files := s.files.set f (s.parts f ++ [(m, 0)]), log := s.log ++ [m] } := {
      same_config := h.same_config
      there := fun x hx => has_set (h.there x hx)
      same := fun q => by
        have hq : (addAll ⟨config, files⟩ (s.log ++ [m])).lines q = (addAll ⟨config, files⟩ s.log).lines q ++ if f = q then [m] else [] := by
          rw [addAll_snoc, FileDB.add, addAll_config]
          simp only [hf, FileDB.lines, Dict.get?_set]
          split
          case isTrue e => subst e; rfl
          case isFalse => simp
        show Sys.parts { s with files := s.files.set f (s.parts f ++ [(m, 0)]) } q = _
        rw [hq, parts_set, List.flatMap_append, ← h.same]
        split
        case isTrue e => subst e; simp [line, h1]
        case isFalse => simp
      pcs := h.pcs }
    exact h2.at pieces (.inr (.inr (.inl rfl)))
  case h_7 => exact h

theorem get?_whole (files : Dict (List Info)) (f : String) : Dict.get? (whole pieces files) f = (Dict.get? files f).map fun ms => ms.flatMap (line pieces) := by
  induction files with
  | nil => rfl
  | cons p d ih =>
    simp only [whole, List.map_cons, Dict.get?_cons] at ih ⊢
    split
    · rfl
    · exact ih

theorem run_inv (config : Dict String) (files : Dict (List Info)) (hf : ∀ x ∈ config, Dict.has files x.2 = true) (ts : List (Nat × Act)) (ht : ∀ i m, (i, .add m) ∈ ts → pieces m = 1) :
    Inv pieces config files (run pieces (fresh config (whole pieces files)) ts) := by
  have h0 : Inv pieces config files (fresh config (whole pieces files)) := {
    same_config := rfl
    there := fun x hx => by
      have := hf x hx
      simp only [Dict.has, fresh, get?_whole] at this ⊢
      simpa using this
    same := fun f => by
      simp only [Sys.parts, fresh, get?_whole, addAll, List.foldl_nil, FileDB.lines]
      cases Dict.get? files f <;> simp
    pcs := fun _ => .inr (.inl rfl) }
  generalize fresh config (whole pieces files) = s at h0 ⊢
  unfold run
  induction ts generalizing s with
  | nil => exact h0
  | cons t ts ih =>
    obtain ⟨i, a⟩ := t
    refine ih (fun j m hm => ht j m (by simp [hm])) _ (h0.step pieces i a ?_)
    intro m hm
    exact ht i m (by simp [hm])

theorem step_log {s : Sys} {i : Nat} {a : Act} {m : Info} (h : m ∈ s.log) : m ∈ (step pieces s i a).log := by
  unfold Shared.step
  split
  case h_5 => split <;> exact h
  case h_6 => simp only; split; exact h; exact List.mem_append_left _ h
  all_goals exact h

theorem log_grows : ∀ (ts : List (Nat × Act)) (s : Sys) {m : Info}, m ∈ s.log → m ∈ (ts.foldl (fun s t => step pieces s t.1 t.2) s).log
  | [], _, _, h => h
  | _ :: ts, _, _, h => log_grows ts _ (step_log pieces h)

theorem add_lines (db : FileDB) (m : Info) (f : String) : ∃ l, (db.add m).2.lines f = db.lines f ++ l := by
  unfold FileDB.add
  split
  · exact ⟨[], by simp⟩
  · rename_i g _
    simp only [FileDB.lines, Dict.get?_set]
    by_cases h : g = f
    · subst h; exact ⟨[m], by simp⟩
    · exact ⟨[], by simp [h]⟩

theorem addAll_has : ∀ (ms : List Info) (db : FileDB) {m : Info} {f : String}, m ∈ ms → db.config.get? m.id = some f → m ∈ (addAll db ms).lines f := by
  have keep : ∀ (ms : List Info) (db : FileDB) {m : Info} {f : String}, m ∈ db.lines f → m ∈ (addAll db ms).lines f := by
    intro ms
    induction ms with
    | nil => exact fun _ _ _ h => h
    | cons a ms ih =>
      intro db m f h
      obtain ⟨l, hl⟩ := add_lines db a f
      exact ih _ (by rw [hl]; exact List.mem_append_left _ h)
  intro ms
  induction ms with
  | nil => exact fun _ _ _ h => by cases h
  | cons a ms ih =>
    intro db m f h hc
    rcases List.mem_cons.1 h with rfl | h
    · refine keep ms _ ?_
      simp [FileDB.add, hc, FileDB.lines]
    · exact ih _ h (by rw [add_config]; exact hc)

end

/-- C223, what holds: with the files there before any of the processes is started, and the line of every mark that is added written at once, what any process finds, at any moment, is what one process would find that had added, in the same order, the marks added so far. -/
theorem C223_sequential_partial (pieces : Info → Nat) (config : Dict String) (files : Dict (List Info)) (ts : List (Nat × Act)) (now : Int) (id sub : String) (iat : Int)
    (hp : ∀ m, 0 < pieces m) (hf : ∀ x ∈ config, Dict.has files x.2 = true) (ht : ∀ i m, (i, .add m) ∈ ts → pieces m = 1) :
    find pieces (run pieces (fresh config (whole pieces files)) ts) now id sub iat = (addAll ⟨config, files⟩ (run pieces (fresh config (whole pieces files)) ts).log).find now id sub iat := by
  have h := run_inv pieces config files hf ts ht
  generalize run pieces (fresh config (whole pieces files)) ts = s at h ⊢
  simp only [find, FileDB.find, h.same_config, addAll_config]
  cases hc : Dict.get? config id with
  | none => rfl
  | some f =>
    have h1 := h.there (id, f) (Dict.get?_mem hc)
    have h2 := h.same f
    simp only [Dict.has, Sys.parts] at h1 h2
    cases hg : Dict.get? s.files f with
    | none => rw [hg] at h1; cases h1
    | some ps =>
      rw [hg] at h2
      simp only [Option.getD_some] at h2
      subst h2
      simp only [hg, linesFrom_whole pieces hp, ← List.map_reverse, findLines_some]

/-- A mark whose addition has returned is a line of its file from then on, whatever the processes do. -/
theorem C223_kept_partial (pieces : Info → Nat) (config : Dict String) (files : Dict (List Info)) (ts : List (Nat × Act)) (m : Info)
    (hp : ∀ m, 0 < pieces m) (hf : ∀ x ∈ config, Dict.has files x.2 = true) (ht : ∀ i m, (i, .add m) ∈ ts → pieces m = 1) (more : List (Nat × Act)) (hm : ∀ i m, (i, .add m) ∈ more → pieces m = 1)
    (f : String) (hc : config.get? m.id = some f) (hl : m ∈ (run pieces (fresh config (whole pieces files)) ts).log) :
    some m ∈ linesFrom pieces [] ((run pieces (fresh config (whole pieces files)) (ts ++ more)).parts f) := by
  have h := run_inv pieces config files hf (ts ++ more) (fun i m h => (List.mem_append.1 h).elim (ht i m) (hm i m))
  have hl2 : m ∈ (run pieces (fresh config (whole pieces files)) (ts ++ more)).log := by
    rw [run, List.foldl_append]
    exact log_grows pieces more _ hl
  rw [h.same, linesFrom_whole pieces hp]
  exact List.mem_map.2 ⟨m, addAll_has _ _ hl2 hc, rfl⟩

/-! ### Wrong otherwise -/

namespace Ex223

def config : Dict String := [("https://tm.example.org/member", "member.json")]
def mark (sub : String) : Info := ⟨"https://tm.example.org/member", sub, 10, none⟩
def one : Info → Nat := fun _ => 1
def two : Info → Nat := fun _ => 2

/-- A process gets started, with nothing in between. -/
def boot (i : Nat) : List (Nat × Act) := [(i, .start), (i, .go), (i, .go)]

/-- Two workers that are started and then issue a mark each, at the same time. -/
def both : List (Nat × Act) := boot 0 ++ boot 1 ++ [(0, .add (mark "https://a.example.org")), (1, .add (mark "https://b.example.org")), (1, .go), (0, .go)]

/-- The partial theorems are about something. -/
example : (∀ x ∈ config, Dict.has (α := List Info) [("member.json", [])] x.2 = true) ∧
    (run one (fresh config (whole one [("member.json", [])])) both).log = [mark "https://b.example.org", mark "https://a.example.org"] ∧
    find one (run one (fresh config (whole one [("member.json", [])])) both) 20 "https://tm.example.org/member" "https://a.example.org" 0 = .ok true ∧
    find one (run one (fresh config (whole one [("member.json", [])])) both) 20 "https://tm.example.org/member" "https://c.example.org" 0 = .ok false := by decide +kernel

/-- The first worker finds that the file is missing; the second is started and issues a mark; the first one goes on and empties the file. -/
def late : List (Nat × Act) :=
  [(0, .start), (0, .go), (1, .start), (1, .go), (1, .go), (1, .go), (1, .add (mark "https://b.example.org")), (1, .go), (0, .go), (0, .go)]

/-- Two workers that write a line in two parts each, at the same time. -/
def mixed : List (Nat × Act) :=
  boot 0 ++ boot 1 ++ [(0, .add (mark "https://a.example.org")), (1, .add (mark "https://b.example.org")), (0, .go), (1, .go), (0, .go), (1, .go)]

end Ex223

open Ex223 in
/-- A mark that was issued is gone: a worker that was started at the same time as the one that issued it has emptied the file. -/
theorem C223_lost_violation : ¬ C223_full ∧
    (run one (fresh config []) late).log = [mark "https://b.example.org"] ∧ find one (run one (fresh config []) late) 20 "https://tm.example.org/member" "https://b.example.org" 0 = .ok false := by
  refine ⟨?_, by decide +kernel, by decide +kernel⟩
  intro h
  exact absurd (h one config [] late 1 20 "https://tm.example.org/member" "https://b.example.org" 0 (fun _ => Nat.zero_lt_succ _) (by decide +kernel)) (by decide +kernel)

open Ex223 in
/-- With lines that are not written at once, both marks were issued, the file was there all the time, and asking for any of them, or for another one, is an error. -/
theorem C223_mixed_violation : ¬ C223_full ∧
    (run two (fresh config (whole two [("member.json", [])])) mixed).log = [mark "https://a.example.org", mark "https://b.example.org"] ∧
    ∀ sub, find two (run two (fresh config (whole two [("member.json", [])])) mixed) 20 "https://tm.example.org/member" sub 0 = .error .valueError := by
  refine ⟨?_, by decide +kernel, ?_⟩
  · intro h
    exact absurd (h two config [("member.json", [])] mixed 1 20 "https://tm.example.org/member" "https://b.example.org" 0 (fun _ => Nat.zero_lt_succ _) (by decide +kernel)) (by decide +kernel)
  · intro sub
    have h : ((run two (fresh config (whole two [("member.json", [])])) mixed).files.get? "member.json").map (linesFrom two []) = some [none, none] := by decide +kernel
    have hc : (run two (fresh config (whole two [("member.json", [])])) mixed).config.get? "https://tm.example.org/member" = some "member.json" := by decide +kernel
    generalize run two (fresh config (whole two [("member.json", [])])) mixed = s at h hc ⊢
    simp only [find, hc]
    cases hg : s.files.get? "member.json" with
    | none => rw [hg] at h; cases h
    | some ps =>
      rw [hg] at h
      simp only [Option.map_some, Option.some.injEq] at h
      simp only [h]
      rfl

end Fed.TrustMarks.Shared
