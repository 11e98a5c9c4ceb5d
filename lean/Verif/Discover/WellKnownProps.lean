import Verif.Discover.WellKnown
import Verif.Discover.EndpointProps
/-
Property C182: an entity of this software is found by its id.
-/
namespace Fed.Discover.WellKnown
open Fed

/-- An entity id as OpenID Federation has it: http or https, a host, perhaps a path; no query and no fragment. -/
structure Id where
  scheme : List Char
  netloc : List Char
  path : List Char
  hs : scheme = "https".toList ∨ scheme = "http".toList
  hn : ∀ c ∈ netloc, inNetloc c = true
  hne : netloc ≠ []
  hp : path = [] ∨ path.head? = some '/'
  hq : ∀ c ∈ path, c ≠ '?' ∧ c ≠ '#'

def Id.chars (i : Id) : List Char := i.scheme ++ ("://".toList ++ (i.netloc ++ i.path))

/-- The text of the id. -/
def Id.text (i : Id) : String := String.ofList i.chars

theorem takeWhile_all {p : Char → Bool} : ∀ {s : List Char}, (∀ c ∈ s, p c = true) → s.takeWhile p = s
  | [], _ => rfl
  | c :: s, h => by
    rw [List.takeWhile_cons_of_pos (h c (by simp)), takeWhile_all fun d hd => h d (by simp [hd])]

theorem dropWhile_all {p : Char → Bool} : ∀ {s : List Char}, (∀ c ∈ s, p c = true) → s.dropWhile p = []
  | [], _ => rfl
  | c :: s, h => by
    rw [List.dropWhile_cons_of_pos (h c (by simp)), dropWhile_all fun d hd => h d (by simp [hd])]

/-- A scheme as `urlparse` gives it. -/
def Scheme (s : List Char) : Prop := ∃ c cs, s = c :: cs ∧ c.isAlpha = true ∧ cs.all schemeChar = true ∧ s.map Char.toLower = s

theorem schemeChar_ne {c : Char} (h : schemeChar c = true) : c ≠ ':' := by
  rintro rfl
  exact absurd h (by decide)

theorem alpha_ne {c : Char} (h : c.isAlpha = true) : c ≠ ':' := by
  rintro rfl
  exact absurd h (by decide)

theorem scheme_no_colon {s : List Char} (h : Scheme s) : ∀ c ∈ s, (c != ':') = true := by
  obtain ⟨c, cs, rfl, h1, h2, -⟩ := h
  intro d hd
  simp only [bne_iff_ne, ne_eq]
  rcases List.mem_cons.1 hd with rfl | hd
  · exact alpha_ne h1
  · exact schemeChar_ne (List.all_eq_true.1 h2 d hd)

theorem splitScheme_of {s rest : List Char} (h : Scheme s) : splitScheme (s ++ ':' :: rest) = (s, rest) := by
  have hc := scheme_no_colon h
  obtain ⟨c, cs, rfl, h1, h2, h3⟩ := h
  unfold splitScheme
  rw [List.takeWhile_append_of_pos hc, List.dropWhile_append_of_pos hc]
  simp only [List.takeWhile_cons, List.dropWhile_cons, bne_self_eq_false, Bool.false_eq_true, if_false, List.append_nil, h1, h2, Bool.and_self, if_true, h3]

theorem splitNetloc_of {n rest : List Char} (h : ∀ c ∈ n, inNetloc c = true) (hr : rest = [] ∨ ∃ c cs, rest = c :: cs ∧ inNetloc c = false) :
    splitNetloc ('/' :: '/' :: (n ++ rest)) = (n, rest) := by
  simp only [splitNetloc]
  rw [List.takeWhile_append_of_pos h, List.dropWhile_append_of_pos h]
  rcases hr with rfl | ⟨c, cs, rfl, hc⟩
  · simp
  · simp [List.takeWhile_cons, List.dropWhile_cons, hc]

theorem withoutParams_of {s : List Char} (h : ∀ c ∈ s, c ≠ ';') : withoutParams s = s := by
  unfold withoutParams
  rw [takeWhile_all (s := (s.reverse.takeWhile (· != '/')).reverse)]
  · rw [← List.reverse_append, List.takeWhile_append_dropWhile, List.reverse_reverse]
  · intro c hc
    have := List.takeWhile_subset _ (List.mem_reverse.1 hc)
    simpa using h c (List.mem_reverse.1 this)

theorem pathOf_of {scheme s : List Char} (h : ∀ c ∈ s, c ≠ '?' ∧ c ≠ '#') : pathOf scheme s = if scheme ∈ usesParams then withoutParams s else s := by
  unfold pathOf
  rw [takeWhile_all (s := s) fun c hc => by simpa using (h c hc).2, takeWhile_all (s := s) fun c hc => by simpa using (h c hc).1]

theorem Id.scheme_ok (i : Id) : Scheme i.scheme := by
  rcases i.hs with h | h <;> rw [h]
  · exact ⟨'h', ['t', 't', 'p', 's'], by decide, by decide, by decide, by decide⟩
  · exact ⟨'h', ['t', 't', 'p'], by decide, by decide, by decide, by decide⟩

/-- What `urlparse` makes of an entity id. -/
theorem Id.parsed (i : Id) : urlparse i.chars = ⟨i.scheme, i.netloc, withoutParams i.path⟩ := by
  have h1 : splitScheme i.chars = (i.scheme, '/' :: '/' :: (i.netloc ++ i.path)) := splitScheme_of i.scheme_ok
  have h2 : splitNetloc ('/' :: '/' :: (i.netloc ++ i.path)) = (i.netloc, i.path) := by
    refine splitNetloc_of i.hn ?_
    rcases i.hp with h | h
    · exact Or.inl h
    · cases hp : i.path with
      | nil => rw [hp] at h; cases h
      | cons c cs =>
        rw [hp] at h
        simp only [List.head?_cons, Option.some.injEq] at h
        subst h
        exact Or.inr ⟨_, _, rfl, by decide⟩
  have h3 : i.scheme ∈ usesParams := by rcases i.hs with h | h <;> rw [h] <;> decide
  unfold urlparse
  rw [h1]
  simp only
  rw [h2]
  simp only
  rw [pathOf_of i.hq, if_pos h3]

/-- The id of the host an entity is at. -/
def Id.host (i : Id) : List Char := i.scheme ++ ("://".toList ++ i.netloc)

def suffix : List Char := "/.well-known/openid-federation".toList

theorem ofList_append (a b : List Char) : String.ofList a ++ String.ofList b = String.ofList (a ++ b) := by
  rw [← String.toList_inj, String.toList_append, String.toList_ofList, String.toList_ofList, String.toList_ofList]

theorem suffix_text : "/.well-known/openid-federation" = String.ofList suffix := String.ofList_toList.symm

theorem parse_text (i : Id) : parse i.text = ⟨String.ofList i.host, String.ofList (withoutParams i.path)⟩ := by
  simp only [parse, Id.text, String.toList_ofList, i.parsed, Url.origin, Id.host, List.append_assoc]

theorem Id.wellKnown_eq (i : Id) : wellKnown (parse i.text) = String.ofList (i.host ++ suffix) := by
  rw [wellKnown, parse_text, suffix_text, ofList_append]

theorem Id.tenant_eq (i : Id) : tenantWellKnown (parse i.text) = String.ofList (i.host ++ withoutParams i.path ++ suffix) := by
  rw [tenantWellKnown, parse_text, suffix_text, ofList_append, ofList_append]

theorem Id.served_eq (i : Id) : servedAt i.text = String.ofList (withoutSlash i.chars ++ suffix) := by
  rw [servedAt, suffix_text, ofList_append, Id.text, String.toList_ofList]

/-! ## The statement -/

/-- C182 in full: where several entities serve their configurations, at addresses of their own, whoever looks for the configuration of one of them gets that one's. -/
def C182_full : Prop :=
  ∀ (root : Root) (es : List (Id × Doc)), es.Pairwise (fun a b => servedAt a.1.text ≠ servedAt b.1.text) → ∀ e ∈ es,
    lookup root (web (es.map fun e => (e.1.text, e.2))) e.1.text = .ok e.2

theorem named_entity (e : String) : named [("entity_id", e)] = e := rfl

theorem issuerOf_entity (root : Root) (e : String) (he : e ≠ "") : issuerOf root [("entity_id", e)] [] = .ok e := by
  unfold issuerOf
  rw [if_neg (List.cons_ne_nil _ _), named_entity]
  simp only
  rw [if_pos he, if_pos he]

theorem lookup_eq (root : Root) (doc : String → Except Collect.NetErr Doc) (e : String) (he : e ≠ "") :
    lookup root doc e = (entityConfiguration parse doc e).mapError (·.toPy) := by
  unfold lookup configurationUrl entityConfiguration
  rw [issuerOf_entity root e he]
  simp only [Bool.false_eq_true, if_false, if_true]
  cases hd : doc (wellKnown (parse e)) with
  | ok d => rfl
  | error x =>
    cases x with
    | missingPage =>
      simp only
      by_cases ht : tenantWellKnown (parse e) ≠ wellKnown (parse e)
      · rw [if_pos ht, if_pos ht]
      · rw [if_neg ht, if_neg ht]; rfl
    | _ => rfl

theorem Id.text_ne (i : Id) : i.text ≠ "" := by
  intro h
  have : i.chars = [] := by
    have h2 := congrArg String.toList h
    rw [Id.text, String.toList_ofList] at h2
    simpa using h2
  simp [Id.chars] at this

theorem web_none {es : List (String × Doc)} {url : String} (h : ∀ e ∈ es, servedAt e.1 ≠ url) : web es url = .error .missingPage := by
  unfold web
  rw [List.find?_eq_none.2 (by intro e he; simpa using h e he)]

theorem web_of {es : List (Id × Doc)} (hd : es.Pairwise (fun a b => servedAt a.1.text ≠ servedAt b.1.text)) : ∀ {e : Id × Doc}, e ∈ es →
    web (es.map fun e => (e.1.text, e.2)) (servedAt e.1.text) = .ok e.2 := by
  induction es with
  | nil => intro e he; cases he
  | cons x xs ih =>
    intro e he
    rw [List.pairwise_cons] at hd
    unfold web
    rw [List.map_cons, List.find?_cons]
    rcases List.mem_cons.1 he with rfl | he
    · simp
    · simp only [decide_eq_false (hd.1 e he)]
      exact ih hd.2 he

theorem withoutSlash_of {s : List Char} (h : s.getLast? ≠ some '/') : withoutSlash s = s := by rw [withoutSlash, if_neg h]

theorem withoutSlash_slash (s : List Char) : withoutSlash (s ++ ['/']) = s := by simp [withoutSlash]

theorem Id.host_last (i : Id) : i.host.getLast? ≠ some '/' := by
  intro h
  have : i.netloc.getLast? = some '/' := by
    rw [Id.host, List.getLast?_append, List.getLast?_append] at h
    cases hn : i.netloc.getLast? with
    | none => exact absurd (List.getLast?_eq_none_iff.1 hn) i.hne
    | some c =>
      rw [hn] at h
      simpa using h
  have := i.hn _ (List.mem_of_getLast? this)
  exact absurd this (by decide)

theorem ofList_inj {a b : List Char} (h : String.ofList a = String.ofList b) : a = b := by
  have := congrArg String.toList h
  rwa [String.toList_ofList, String.toList_ofList] at this

/-- Only a host's own entity serves its configuration at the address of the host. -/
theorem served_host {o i : Id} (h : withoutSlash o.chars = i.host) : o.scheme = i.scheme ∧ o.netloc = i.netloc ∧ o.path ∈ [[], ['/']] := by
  have key : ∀ p : List Char, (hp : p = [] ∨ p.head? = some '/') → (∀ c ∈ p, c ≠ '?' ∧ c ≠ '#') → o.chars = i.host ++ p → o.scheme = i.scheme ∧ o.netloc = i.netloc ∧ o.path = p := by
    intro p hp hq hc
    let i' : Id := { i with path := p, hp := hp, hq := hq }
    have h1 : o.chars = i'.chars := by rw [hc]; simp [Id.host, Id.chars, i']
    have h2 : urlparse o.chars = urlparse i'.chars := by rw [h1]
    rw [o.parsed, i'.parsed] at h2
    have hs : o.scheme = i.scheme := congrArg Url.scheme h2
    have hn : o.netloc = i.netloc := congrArg Url.netloc h2
    refine ⟨hs, hn, ?_⟩
    have : o.host ++ o.path = i.host ++ p := by rw [← hc]; simp [Id.host, Id.chars]
    rw [show o.host = i.host by rw [Id.host, Id.host, hs, hn]] at this
    exact List.append_cancel_left this
  by_cases hl : o.chars.getLast? = some '/'
  · rw [withoutSlash, if_pos hl] at h
    have hc : o.chars = i.host ++ ['/'] := by
      obtain ⟨ys, hys⟩ := List.getLast?_eq_some_iff.1 hl
      rw [← h, hys, List.dropLast_concat]
    obtain ⟨h1, h2, h3⟩ := key ['/'] (Or.inr rfl) (by simp) hc
    exact ⟨h1, h2, by simp [h3]⟩
  · rw [withoutSlash_of hl] at h
    obtain ⟨h1, h2, h3⟩ := key [] (Or.inl rfl) (by simp) (by simpa using h)
    exact ⟨h1, h2, by simp [h3]⟩

/-- C182 as far as it holds: an entity is found if there is no semicolon in its id and, where it has a path, that does not end with a slash and nobody serves a configuration for the host it is at.
Missing: entities that share a host with one that has no path, and ids that end with a slash or have parameters. -/
theorem C182_found_partial (root : Root) (es : List (Id × Doc)) (hd : es.Pairwise (fun a b => servedAt a.1.text ≠ servedAt b.1.text)) (e : Id × Doc) (he : e ∈ es)
    (hc : e.1.path ∈ [[], ['/']] ∨ (∀ c ∈ e.1.path, c ≠ ';') ∧ e.1.path.getLast? ≠ some '/' ∧ ∀ o ∈ es, o.1.scheme = e.1.scheme → o.1.netloc = e.1.netloc → o.1.path ∉ [[], ['/']]) :
    lookup root (web (es.map fun e => (e.1.text, e.2))) e.1.text = .ok e.2 := by
  rw [lookup_eq _ _ _ e.1.text_ne]
  have own := web_of hd he
  have served : e.1.path ∈ [[], ['/']] → servedAt e.1.text = wellKnown (parse e.1.text) := by
    intro h
    rw [e.1.served_eq, e.1.wellKnown_eq]
    have : e.1.chars = e.1.host ++ e.1.path := by simp [Id.chars, Id.host]
    rw [this]
    rcases List.mem_cons.1 h with h | h
    · rw [h, List.append_nil, withoutSlash_of e.1.host_last]
    · rw [List.mem_singleton.1 h, withoutSlash_slash]
  rcases hc with hp | ⟨hsemi, hlast, hhost⟩
  · rw [served hp] at own
    simp only [entityConfiguration, own]
    rfl
  · by_cases hp : e.1.path ∈ [[], ['/']]
    · rw [served hp] at own
      simp only [entityConfiguration, own]
      rfl
    · have none : web (es.map fun e => (e.1.text, e.2)) (wellKnown (parse e.1.text)) = .error .missingPage := by
        refine web_none ?_
        intro x hx
        obtain ⟨o, ho, rfl⟩ := List.mem_map.1 hx
        intro heq
        rw [Id.served_eq, Id.wellKnown_eq] at heq
        obtain ⟨h1, h2, h3⟩ := served_host (List.append_cancel_right (ofList_inj heq))
        exact hhost o ho h1 h2 h3
      have tenant : servedAt e.1.text = tenantWellKnown (parse e.1.text) := by
        rw [Id.served_eq, Id.tenant_eq, withoutParams_of hsemi]
        have : e.1.chars = e.1.host ++ e.1.path := by simp [Id.chars, Id.host]
        rw [this, withoutSlash_of]
        rw [List.getLast?_append]
        cases hl : e.1.path.getLast? with
        | none =>
          refine absurd (List.mem_cons.2 (Or.inl (List.getLast?_eq_none_iff.1 hl))) hp
        | some c =>
          rw [hl] at hlast
          simpa using hlast
      unfold entityConfiguration
      rw [none]
      simp only
      by_cases ht : tenantWellKnown (parse e.1.text) = wellKnown (parse e.1.text)
      · rw [← ht, ← tenant, own] at none
        cases none
      · rw [if_pos ht, ← tenant, own]
        rfl

namespace Ex
def host : Id := ⟨"https".toList, "h".toList, [], Or.inl rfl, by decide, by decide, Or.inl rfl, by decide⟩
def tenant : Id := ⟨"https".toList, "h".toList, "/t".toList, Or.inl rfl, by decide, by decide, Or.inr (by decide), by decide⟩
def slash : Id := ⟨"https".toList, "g".toList, "/t/".toList, Or.inl rfl, by decide, by decide, Or.inr (by decide), by decide⟩
def other : Id := ⟨"https".toList, "g".toList, "/u/v".toList, Or.inl rfl, by decide, by decide, Or.inr (by decide), by decide⟩
def A : Doc := some (Chains.Ex.conf "https://h" none [])
def B : Doc := some (Chains.Ex.conf "https://h/t" none [])
end Ex

/-- C182 does not hold: next to an entity that is a host, its tenants are not found. -/
theorem C182_shared_violation : ¬ C182_full := by
  intro h
  have := h (.alone "x") [(Ex.host, Ex.A), (Ex.tenant, Ex.B)] (by decide +kernel) (Ex.tenant, Ex.B) (by simp)
  exact absurd this (by decide +kernel)

/-- C182 does not hold for an entity alone either: with a path that ends with a slash, the address asked has two slashes where the one served has one. -/
theorem C182_slash_violation : ¬ C182_full := by
  intro h
  have := h (.alone "x") [(Ex.slash, Ex.A)] (by decide +kernel) (Ex.slash, Ex.A) (by simp)
  exact absurd this (by decide +kernel)

example : lookup (.alone "x") (web [(Ex.host.text, Ex.A), (Ex.other.text, Ex.B)]) "https://h" = .ok Ex.A ∧
    lookup (.alone "x") (web [(Ex.host.text, Ex.A), (Ex.other.text, Ex.B)]) "https://g/u/v" = .ok Ex.B ∧
    lookup (.alone "x") (web [(Ex.host.text, Ex.A), (Ex.tenant.text, Ex.B)]) "https://h/t" = .ok Ex.A := by decide +kernel

/-- C182: whose configuration is asked for is the entity named as `entity_id`, whatever issuer is named beside it; and, in arguments without one, the issuer. -/
theorem C182_named (root : Root) (args kwargs : Dict String) (tenant : Bool) (e : String) (he : e ≠ "") :
    (args.get? "entity_id" = some e ∨ (args.get? "entity_id" = none ∧ args.get? "iss" = some e) → configurationUrl root args kwargs tenant = configurationUrl (.alone e) [] [] tenant) ∧
    (kwargs.get? "entity_id" = some e ∨ (kwargs.get? "entity_id" = none ∧ kwargs.get? "iss" = some e) → configurationUrl root [] kwargs tenant = configurationUrl (.alone e) [] [] tenant) := by
  have key : ∀ d : Dict String, d.get? "entity_id" = some e ∨ (d.get? "entity_id" = none ∧ d.get? "iss" = some e) → named d = e := by
    intro d h
    unfold named
    rcases h with h | ⟨h, h'⟩
    · rw [h]
    · rw [h, h']; rfl
  have hself : issuerOf (.alone e) [] [] = .ok e := by
    unfold issuerOf
    rw [if_pos rfl]
    have : named [] = "" := rfl
    rw [this]
    simp [he]
  refine ⟨fun h => ?_, fun h => ?_⟩
  · have hne : args ≠ [] := by
      rintro rfl
      rcases h with h | ⟨-, h⟩ <;> cases h
    have : issuerOf root args kwargs = .ok e := by
      unfold issuerOf
      rw [if_neg hne, key args h]
      simp [he]
    unfold configurationUrl
    rw [this, hself]
  · have : issuerOf root [] kwargs = .ok e := by
      unfold issuerOf
      rw [if_pos rfl, key kwargs h]
      simp [he]
    unfold configurationUrl
    rw [this, hself]

example : configurationUrl (.alone "https://me") [("iss", "https://i"), ("entity_id", "https://h")] [] false = .ok "https://h/.well-known/openid-federation" := by decide +kernel

/-! ## Own host -/

theorem lower_ascii : ∀ n < 128, ((Char.ofNat n).toLower.toLower = (Char.ofNat n).toLower) ∧ ((Char.ofNat n).isAlpha = true → (Char.ofNat n).toLower.isAlpha = true) ∧
    (schemeChar (Char.ofNat n) = true → schemeChar (Char.ofNat n).toLower = true) := by decide +kernel

theorem ascii_of_schemeChar {c : Char} (h : schemeChar c = true) : c.toNat < 128 := by
  simp only [schemeChar, Char.isAlphanum, Char.isAlpha, Char.isUpper, Char.isLower, Char.isDigit, Bool.or_eq_true, Bool.and_eq_true, decide_eq_true_eq, beq_iff_eq, UInt32.le_iff_toNat_le] at h
  have hc : c.toNat = c.val.toNat := rfl
  rcases h with (((((⟨-, h⟩ | ⟨-, h⟩) | ⟨-, h⟩) | rfl) | rfl) | rfl)
  · have : c.val.toNat ≤ 90 := h
    omega
  · have : c.val.toNat ≤ 122 := h
    omega
  · have : c.val.toNat ≤ 57 := h
    omega
  all_goals decide

theorem alpha_schemeChar {c : Char} (h : c.isAlpha = true) : schemeChar c = true := by simp [schemeChar, Char.isAlphanum, h]

/-- What `urlparse` gives as the scheme is a scheme. -/
theorem splitScheme_scheme (s : List Char) (h : (splitScheme s).1 ≠ []) : Scheme (splitScheme s).1 := by
  unfold splitScheme at h ⊢
  cases h1 : s.takeWhile (· != ':') with
  | nil => rw [h1] at h; exact absurd rfl h
  | cons c cs =>
    cases h2 : s.dropWhile (· != ':') with
    | nil => rw [h1, h2] at h; exact absurd rfl h
    | cons d rest =>
      rw [h1, h2] at h
      simp only at h ⊢
      by_cases hc : (c.isAlpha && cs.all schemeChar) = true
      · rw [if_pos hc]
        simp only [Bool.and_eq_true] at hc
        have asc : ∀ x : Char, schemeChar x = true → x.toLower.toLower = x.toLower ∧ (x.isAlpha = true → x.toLower.isAlpha = true) ∧ (schemeChar x = true → schemeChar x.toLower = true) := by
          intro x hx
          have := lower_ascii x.toNat (ascii_of_schemeChar hx)
          rwa [Char.ofNat_toNat] at this
        have hall := List.all_eq_true.1 hc.2
        refine ⟨c.toLower, cs.map Char.toLower, rfl, (asc c (alpha_schemeChar hc.1)).2.1 hc.1, ?_, ?_⟩
        · rw [List.all_eq_true]
          intro x hx
          obtain ⟨y, hy, rfl⟩ := List.mem_map.1 hx
          exact (asc y (hall y hy)).2.2 (hall y hy)
        · simp only [List.map_cons, List.map_map]
          rw [(asc c (alpha_schemeChar hc.1)).1]
          congr 1
          exact List.map_congr_left fun x hx => (asc x (hall x hx)).1
      · rw [if_neg hc] at h
        exact absurd rfl h

theorem splitNetloc_chars (s : List Char) : ∀ c ∈ (splitNetloc s).1, inNetloc c = true := by
  unfold splitNetloc
  split
  · intro c hc
    exact List.all_eq_true.1 List.all_takeWhile c hc
  · intro c hc; cases hc

theorem withoutParams_slash (t : List Char) : ∃ t', withoutParams ('/' :: t) = '/' :: t' := by
  have hs : (('/' :: t).reverse.dropWhile (· != '/')).reverse ++ (('/' :: t).reverse.takeWhile (· != '/')).reverse = '/' :: t := by
    rw [← List.reverse_append, List.takeWhile_append_dropWhile, List.reverse_reverse]
  unfold withoutParams
  cases ha : (('/' :: t).reverse.dropWhile (· != '/')).reverse with
  | nil =>
    rw [ha, List.nil_append] at hs
    have : '/' ∈ ('/' :: t).reverse.takeWhile (· != '/') := by
      rw [← List.mem_reverse, hs]
      simp
    exact absurd (List.all_eq_true.1 List.all_takeWhile _ this) (by decide)
  | cons c a =>
    rw [ha, List.cons_append] at hs
    rw [(List.cons.inj hs).1]
    exact ⟨_, rfl⟩

theorem pathOf_starts (scheme rest : List Char) (h : rest = [] ∨ ∃ c cs, rest = c :: cs ∧ inNetloc c = false) : pathOf scheme rest = [] ∨ ∃ t, pathOf scheme rest = '/' :: t := by
  have hs : (rest.takeWhile (· != '#')).takeWhile (· != '?') = [] ∨ ∃ t, (rest.takeWhile (· != '#')).takeWhile (· != '?') = '/' :: t := by
    rcases h with rfl | ⟨c, cs, rfl, hc⟩
    · exact Or.inl rfl
    · simp only [inNetloc, Bool.and_eq_false_iff, bne_eq_false_iff_eq] at hc
      rcases hc with (rfl | rfl) | rfl
      · exact Or.inr ⟨_, by rw [List.takeWhile_cons_of_pos (by decide), List.takeWhile_cons_of_pos (by decide)]⟩
      · exact Or.inl (by rw [List.takeWhile_cons_of_pos (by decide), List.takeWhile_cons_of_neg (by decide)])
      · exact Or.inl (by rw [List.takeWhile_cons_of_neg (by decide)]; rfl)
  unfold pathOf
  simp only
  rcases hs with hs | ⟨t, hs⟩ <;> rw [hs]
  · left
    split <;> rfl
  · right
    split
    · exact withoutParams_slash t
    · exact ⟨_, rfl⟩

theorem splitNetloc_rest (s : List Char) (h : (splitNetloc s).1 ≠ []) : (splitNetloc s).2 = [] ∨ ∃ c cs, (splitNetloc s).2 = c :: cs ∧ inNetloc c = false := by
  unfold splitNetloc at h ⊢
  split at h
  · rename_i rest
    cases hd : rest.dropWhile inNetloc with
    | nil => exact Or.inl rfl
    | cons c cs =>
      refine Or.inr ⟨c, cs, rfl, ?_⟩
      have := List.head?_dropWhile_not inNetloc rest
      rw [hd] at this
      simpa using this
  · exact absurd rfl h

/-- Two texts name the same place: the same scheme and host. -/
def SamePlace (url entity : String) : Prop := (urlparse url.toList).scheme = (urlparse entity.toList).scheme ∧ (urlparse url.toList).netloc = (urlparse entity.toList).netloc

theorem samePlace_of {entity : String} (hs : (urlparse entity.toList).scheme ≠ []) (hn : (urlparse entity.toList).netloc ≠ []) {rest : List Char} (hr : ∃ t, rest = '/' :: t) :
    SamePlace (String.ofList ((urlparse entity.toList).origin ++ rest)) entity := by
  obtain ⟨t, rfl⟩ := hr
  have h1 : Scheme (urlparse entity.toList).scheme := splitScheme_scheme _ hs
  have h2 : ∀ c ∈ (urlparse entity.toList).netloc, inNetloc c = true := splitNetloc_chars _
  unfold SamePlace
  generalize urlparse entity.toList = u at *
  have h3 : u.origin ++ '/' :: t = u.scheme ++ ':' :: ('/' :: '/' :: (u.netloc ++ '/' :: t)) := by simp [Url.origin]
  rw [String.toList_ofList, h3]
  unfold urlparse
  rw [splitScheme_of h1]
  simp only
  rw [splitNetloc_of h2 (Or.inr ⟨_, _, rfl, by decide⟩)]
  exact ⟨trivial, rfl⟩

/-- C182, the other way round: whatever the texts, the configuration of an entity is taken from nowhere but its own scheme and host: what there is elsewhere makes no difference. -/
theorem C182_own_host (root : Root) (entity : String) (hs : (urlparse entity.toList).scheme ≠ []) (hn : (urlparse entity.toList).netloc ≠ [])
    (doc doc' : String → Except Collect.NetErr Doc) (h : ∀ url, SamePlace url entity → doc url = doc' url) : lookup root doc entity = lookup root doc' entity := by
  have he : entity ≠ "" := by rintro rfl; exact hn (by decide)
  rw [lookup_eq _ _ _ he, lookup_eq _ _ _ he]
  have h1 : doc (wellKnown (parse entity)) = doc' (wellKnown (parse entity)) := by
    refine h _ ?_
    rw [wellKnown, suffix_text, parse, ofList_append]
    exact samePlace_of hs hn ⟨".well-known/openid-federation".toList, by decide⟩
  have h2 : doc (tenantWellKnown (parse entity)) = doc' (tenantWellKnown (parse entity)) := by
    refine h _ ?_
    rw [tenantWellKnown, suffix_text, parse, ofList_append, ofList_append, List.append_assoc]
    refine samePlace_of hs hn ?_
    have hp : (urlparse entity.toList).path = [] ∨ ∃ t, (urlparse entity.toList).path = '/' :: t := pathOf_starts _ _ (splitNetloc_rest _ hn)
    rcases hp with hp | ⟨t, hp⟩ <;> rw [hp]
    · exact ⟨".well-known/openid-federation".toList, by decide⟩
    · exact ⟨_, rfl⟩
  unfold entityConfiguration
  rw [h1, h2]

example : (urlparse "HTTPS://user@h:8080/a;b/c;d?q#f".toList) = ⟨"https".toList, "user@h:8080".toList, "/a;b/c".toList⟩ ∧
    wellKnown (parse "https://example.org/tennant1") = "https://example.org/.well-known/openid-federation" ∧
    tenantWellKnown (parse "https://example.org/tennant1") = "https://example.org/tennant1/.well-known/openid-federation" := by decide +kernel

/-- Without `//`, the host is not what it seems: the second address asked is at another place than the first. -/
example : wellKnown (parse "https:evil") = "https:///.well-known/openid-federation" ∧ tenantWellKnown (parse "https:evil") = "https://evil/.well-known/openid-federation" := by decide +kernel

end Fed.Discover.WellKnown
