import Verif.Spec.SchemaPaths
import Verif.Spec.JsonPointer
import Verif.Props.JsonPointerCodec
import Verif.Props.NormPaths
/-
Property C62: the paths of a schema.
-/
namespace Props
open Py Model Spec Lemmas

private theorem mem_visitForks {l : List Schema} {path q : Str} :
    q ∈ visitForks l path ↔ ∃ t ∈ l, q ∈ visitSchema t path := by
  induction l with
  | nil => simp [visitForks]
  | cons s l ih => simp [visitForks, ih]

private theorem mem_visitProps {l : List (Str × Schema)} {path q : Str} :
    q ∈ visitProps l path ↔ ∃ p t, (p, t) ∈ l ∧ q ∈ visitSchema t (path ++ ('/' :: p)) := by
  induction l with
  | nil => simp [visitProps]
  | cons s l ih =>
    obtain ⟨p, s⟩ := s
    simp only [visitProps, List.mem_append, ih, List.mem_cons, Prod.mk.injEq]
    constructor
    · rintro (h | ⟨p', t, h1, h2⟩)
      · exact ⟨p, s, .inl ⟨rfl, rfl⟩, h⟩
      · exact ⟨p', t, .inr h1, h2⟩
    · rintro ⟨p', t, ⟨rfl, rfl⟩ | h1, h2⟩
      · exact .inl h2
      · exact .inr ⟨p', t, h1, h2⟩

private theorem mem_visitSchema {s : Schema} {path q : Str} :
    q ∈ visitSchema s path ↔ (∃ t, (t ∈ s.oneOf ∨ t ∈ s.anyOf ∨ t ∈ s.allOf) ∧ q ∈ visitSchema t path) ∨
      (s.props = [] ∧ q = path) ∨ ∃ p t, (p, t) ∈ s.props ∧ q ∈ visitSchema t (path ++ ('/' :: p)) := by
  obtain ⟨one, any, all, props⟩ := s
  have h : q ∈ visitSchema (.mk one any all props) path ↔
      q ∈ visitForks one path ++ visitForks any path ++ visitForks all path ∨
      ((props = [] ∧ q = path) ∨ ∃ p t, (p, t) ∈ props ∧ q ∈ visitSchema t (path ++ ('/' :: p))) := by
    cases props with
    | nil => rw [visitSchema, List.mem_append]; simp
    | cons p ps => rw [visitSchema, List.mem_append, mem_visitProps]; simp
  rw [h]
  simp only [List.mem_append, mem_visitForks, Schema.oneOf, Schema.anyOf, Schema.allOf, Schema.props]
  constructor
  · rintro (((⟨t, h1, h2⟩ | ⟨t, h1, h2⟩) | ⟨t, h1, h2⟩) | h)
    · exact .inl ⟨t, .inl h1, h2⟩
    · exact .inl ⟨t, .inr (.inl h1), h2⟩
    · exact .inl ⟨t, .inr (.inr h1), h2⟩
    · exact .inr h
  · rintro (⟨t, h1 | h1 | h1, h2⟩ | h)
    · exact .inl (.inl (.inl ⟨t, h1, h2⟩))
    · exact .inl (.inl (.inr ⟨t, h1, h2⟩))
    · exact .inl (.inr ⟨t, h1, h2⟩)
    · exact .inr h

private theorem sizeOf_lt {s t : Schema} (h : t ∈ s.oneOf ∨ t ∈ s.anyOf ∨ t ∈ s.allOf) : sizeOf t < sizeOf s := by
  obtain ⟨one, any, all, props⟩ := s
  simp only [Schema.oneOf, Schema.anyOf, Schema.allOf] at h
  rcases h with h | h | h <;> have := List.sizeOf_lt_of_mem h <;> simp only [Schema.mk.sizeOf_spec] <;> omega

private theorem sizeOf_prop {s t : Schema} {p : Str} (h : (p, t) ∈ s.props) : sizeOf t < sizeOf s := by
  obtain ⟨one, any, all, props⟩ := s
  simp only [Schema.props] at h
  have := List.sizeOf_lt_of_mem h
  simp only [Schema.mk.sizeOf_spec, Prod.mk.sizeOf_spec] at *
  omega

private theorem visit_iff (n : Nat) : ∀ (s : Schema), sizeOf s ≤ n → ∀ (path q : Str),
    q ∈ visitSchema s path ↔ ∃ names, LeafChain s names ∧ q = path ++ names.flatMap (fun p => '/' :: p) := by
  induction n with
  | zero =>
    intro s h
    obtain ⟨one, any, all, props⟩ := s
    simp only [Schema.mk.sizeOf_spec] at h
    omega
  | succ n ih =>
    intro s hs path q
    rw [mem_visitSchema]
    constructor
    · rintro (⟨t, h1, h2⟩ | ⟨h1, rfl⟩ | ⟨p, t, h1, h2⟩)
      · obtain ⟨names, h3, h4⟩ := (ih t (by have := sizeOf_lt h1; omega) _ _).1 h2
        exact ⟨names, .fork h1 h3, h4⟩
      · exact ⟨[], .leaf h1, by simp⟩
      · obtain ⟨names, h3, h4⟩ := (ih t (by have := sizeOf_prop h1; omega) _ _).1 h2
        exact ⟨p :: names, .prop h1 h3, by rw [h4]; simp⟩
    · rintro ⟨names, h1, h2⟩
      cases h1 with
      | leaf h => exact .inr (.inl ⟨h, by simpa using h2⟩)
      | fork h h' => exact .inl ⟨_, h, (ih _ (by have := sizeOf_lt h; omega) _ _).2 ⟨_, h', h2⟩⟩
      | prop h h' =>
        exact .inr (.inr ⟨_, _, h, (ih _ (by have := sizeOf_prop h; omega) _ _).2 ⟨_, h', by rw [h2]; simp⟩⟩)

/-- C62. The paths built are exactly the chains of property names leading to leaves, each name as it is
after a slash. -/
theorem C62_paths (s : Schema) (q : Str) :
    q ∈ buildAllJsonpaths s ↔ ∃ names, LeafChain s names ∧ q = names.flatMap (fun p => '/' :: p) := by
  unfold buildAllJsonpaths
  rw [visit_iff _ s (Nat.le_refl _)]
  simp

theorem replace2_shorter (a b x : Char) (n : Nat) : ∀ s : Str, s.length ≤ n →
    (replace2 a b [x] s).length ≤ s.length ∧ ((replace2 a b [x] s).length = s.length → ¬ [a, b] <:+: s) ∧
    (¬ [a, b] <:+: s → replace2 a b [x] s = s) := by
  induction n with
  | zero =>
    intro s h
    have : s = [] := List.length_eq_zero_iff.1 (by omega)
    subst this
    simp [replace2]
  | succ n ih =>
    intro s h
    match s with
    | [] => simp [replace2]
    | [c] =>
      have e : replace2 a b [x] [c] = [c] := by simp [replace2]
      rw [e]
      refine ⟨Nat.le_refl _, fun _ hi => ?_, fun _ => rfl⟩
      have := hi.length_le
      simp at this
    | c :: d :: t =>
      by_cases hh : c = a ∧ d = b
      · obtain ⟨rfl, rfl⟩ := hh
        rw [replace2_cons_hit]
        have := (ih t (by simp at h; omega)).1
        refine ⟨by simp; omega, fun e => ?_, fun hi => ?_⟩
        · simp at e; omega
        · exact absurd ⟨[], t, by simp⟩ hi
      · have e : replace2 a b [x] (c :: d :: t) = c :: replace2 a b [x] (d :: t) := by
          by_cases hc : c = a
          · subst hc
            exact replace2_cons_miss t (fun e => hh ⟨rfl, e⟩)
          · exact replace2_cons_ne _ hc
        obtain ⟨h1, h2, h3⟩ := ih (d :: t) (by simp at h ⊢; omega)
        rw [e]
        refine ⟨by simp at h1 ⊢; omega, fun e hi => ?_, fun hi => ?_⟩
        · rw [List.infix_cons_iff] at hi
          rcases hi with hi | hi
          · obtain ⟨r, hr⟩ := hi
            simp only [List.cons_append, List.nil_append, List.cons.injEq] at hr
            exact hh ⟨hr.1.symm, hr.2.1.symm⟩
          · exact h2 (by simpa using e) hi
        · rw [h3 (fun hi' => hi (List.infix_cons_iff.2 (.inr hi')))]

theorem unescape_same (n : Str) : unescapePart n = n ↔ ¬ ['~', '0'] <:+: n ∧ ¬ ['~', '1'] <:+: n := by
  unfold unescapePart
  obtain ⟨a1, a2, a3⟩ := replace2_shorter '~' '1' '/' _ n (Nat.le_refl _)
  obtain ⟨b1, b2, b3⟩ := replace2_shorter '~' '0' '~' _ (replace2 '~' '1' ['/'] n) (Nat.le_refl _)
  constructor
  · intro e
    have hl := congrArg List.length e
    have h1 := a2 (by omega)
    have h2 := b2 (by omega)
    rw [a3 h1] at h2
    exact ⟨h2, h1⟩
  · rintro ⟨h0, h1⟩
    rw [a3 h1] at b3 ⊢
    exact b3 h0

theorem splitOn_one {n : Str} : (splitOn '/' n).length ≤ 1 ↔ '/' ∉ n := by
  constructor
  · intro h hm
    obtain ⟨a, b, rfl⟩ := List.append_of_mem hm
    rw [splitOn_mid, List.length_append] at h
    have h1 := List.length_pos_iff.2 (splitOn_ne_nil '/' a)
    have h2 := List.length_pos_iff.2 (splitOn_ne_nil '/' b)
    omega
  · intro h
    rw [splitOn_of_not_mem h]; simp

theorem split_written (names : List Str) :
    splitOn '/' (names.flatMap (fun p => '/' :: p)) = [] :: names.flatMap (splitOn '/') := by
  induction names with
  | nil => rfl
  | cons n ns ih =>
    rw [List.flatMap_cons, List.flatMap_cons, List.cons_append, splitOn_sep]
    cases ns with
    | nil => simp
    | cons m ms =>
      rw [List.flatMap_cons, List.cons_append, splitOn_mid]
      rw [List.flatMap_cons, List.cons_append, splitOn_sep] at ih
      rw [(List.cons.inj ih).2]

theorem parts_length (names : List Str) : names.length ≤ (names.flatMap (splitOn '/')).length := by
  induction names with
  | nil => simp
  | cons n ns ih =>
    rw [List.flatMap_cons, List.length_append, List.length_cons]
    have := List.length_pos_iff.2 (splitOn_ne_nil '/' n)
    omega

/-- C62. A path splits to the names it is made of exactly if each of them can be written as it is. -/
theorem C62_written_exact (names : List Str) :
    iterParts (names.flatMap (fun p => '/' :: p)) = .ok names ↔
      ∀ n ∈ names, PlainName n := by
  have e0 : "~0".toList = ['~', '0'] := by decide
  have e1 : "~1".toList = ['~', '1'] := by decide
  unfold iterParts PlainName
  rw [split_written, e0, e1]
  simp only [Except.ok.injEq]
  induction names with
  | nil => simp
  | cons n ns ih =>
    rw [List.forall_mem_cons, List.flatMap_cons]
    constructor
    · intro h
      have hl := congrArg List.length h
      simp only [List.length_map, List.length_append, List.length_cons] at hl
      have := parts_length ns
      have hs := splitOn_one.1 (show (splitOn '/' n).length ≤ 1 by omega)
      rw [splitOn_of_not_mem hs] at h
      simp only [List.cons_append, List.nil_append, List.map_cons, List.cons.injEq] at h
      exact ⟨⟨hs, (unescape_same n).1 h.1⟩, ih.1 h.2⟩
    · rintro ⟨⟨hs, h1⟩, h2⟩
      rw [splitOn_of_not_mem hs]
      simp only [List.cons_append, List.nil_append, List.map_cons, ih.2 h2, (unescape_same n).2 h1]

private theorem plain {s : Schema} {names : List Str} (h : LeafChain s names) (hs : AllNames PlainName s) :
    iterParts (names.flatMap (fun p => '/' :: p)) = .ok names := by
  rw [C62_written_exact]
  induction h with
  | leaf _ => simp
  | fork ht _ ih =>
    cases hs with
    | mk h1 h2 h3 => exact ih (h1 _ ht)
  | prop hp _ ih =>
    cases hs with
    | mk h1 h2 h3 =>
      rw [List.forall_mem_cons]
      exact ⟨h2 _ _ hp, ih (h3 _ _ hp)⟩

/-- C62. When no property name has a slash, `~0` or `~1` in it, splitting the paths by the pointer rules gives
exactly the chains of names leading to leaves. Missing: other names, which are not escaped, see
`C62_slash_refuted`. -/
theorem C62_pointers_partial (s : Schema) (hs : AllNames PlainName s) (names : List Str) :
    LeafChain s names ↔ ∃ q ∈ buildAllJsonpaths s, iterParts q = .ok names := by
  constructor
  · intro h
    exact ⟨_, (C62_paths s _).2 ⟨names, h, rfl⟩, plain h hs⟩
  · rintro ⟨q, hq, hi⟩
    obtain ⟨names', h, rfl⟩ := (C62_paths s q).1 hq
    rw [plain h hs] at hi
    simp only [Except.ok.injEq] at hi
    exact hi ▸ h

/-- C62 fails for every property whose name has a slash: its path splits to something else. -/
theorem C62_slash_refuted (a b : Str) (ha : PlainName a) (hb : PlainName b) :
    buildAllJsonpaths (.mk [] [] [] [(a ++ '/' :: b, .mk [] [] [] [])]) = ['/' :: a ++ '/' :: b] ∧
    iterParts ('/' :: a ++ '/' :: b) = .ok [a, b] := by
  refine ⟨by simp [buildAllJsonpaths, visitSchema, visitForks, visitProps], ?_⟩
  have := (C62_written_exact [a, b]).2 (by simp [ha, hb])
  simpa using this

/-- A name with a tilde that is kept, and one that is not. -/
example : PlainName "a~b".toList ∧ iterParts "/a~b".toList = .ok ["a~b".toList] ∧ ¬ PlainName "a~1b".toList ∧
    iterParts "/a~1b".toList = .ok ["a/b".toList] := by
  refine ⟨?_, by rfl, fun h => h.2.2 ⟨"a".toList, "b".toList, by decide⟩, by rfl⟩
  have := (C62_written_exact ["a~b".toList]).1 (by rfl)
  simpa using this

private def leafSchema : Schema := .mk [] [] [] []
example : buildAllJsonpaths (.mk [] [.mk [] [] [] [("z".toList, leafSchema)]] []
    [("a".toList, .mk [] [] [] [("b".toList, leafSchema), ("c".toList, leafSchema)]), ("d".toList, leafSchema)]) =
    ["/z".toList, "/a/b".toList, "/a/c".toList, "/d".toList] := rfl

end Props
