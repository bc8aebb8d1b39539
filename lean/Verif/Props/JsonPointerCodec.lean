import Verif.Lemmas.JsonPointer
/-
C01, C02: json-pointer escaping and splitting.
-/
namespace Props
open Py Model Spec

/-- C01. Unescaping an escaped part gives the part back. -/
theorem C01_unescape_escape (p : Str) : unescapePart (escapePart p) = p := by
  rw [escapePart_eq_esc, unescape_esc]

example : escapePart "a/~1~0b".toList = "a~1~01~00b".toList := by decide

/-- C01. An escaped part never contains a slash. -/
theorem C01_escape_no_slash (p : Str) : '/' ∉ escapePart p := by
  rw [escapePart_eq_esc]; exact slash_not_mem_esc p

/-- C01. Different parts never escape to the same text. -/
theorem C01_escape_injective (p q : Str) (h : escapePart p = escapePart q) : p = q := by
  rw [← C01_unescape_escape p, ← C01_unescape_escape q, h]

example : escapePart "~1".toList ≠ escapePart "/".toList := by decide

/-- C01. Escaping is the character-wise code of RFC 6901 (`~` to `~0`, `/` to `~1`). -/
theorem C01_escape_is_rfc6901 (p : Str) : escapePart p = esc p := escapePart_eq_esc p

/-- C02. Splitting the pointer written from `parts` gives `parts` back, in order. -/
theorem C02_iter_pointerOf (parts : List Str) : iterParts (pointerOf parts) = .ok parts := by
  simp [iterParts, splitOn_pointerOf, Function.comp_def, unescape_esc]

/-- C02. The relaxed iteration gives the same parts after one empty "root" step. -/
theorem C02_relaxed_pointerOf (parts : List Str) :
    iterPartsRelaxed (pointerOf parts) = [] :: parts := by
  simp [iterPartsRelaxed, splitOn_pointerOf, Function.comp_def, unescape_esc]
  decide

example : pointerOf ["a/b".toList, [], "~".toList] = "/a~1b//~0".toList := by decide

/-- C02. The strict iteration rejects exactly the pointers that are neither empty nor start with a
slash, and always with the reference error. -/
theorem C02_iter_rejects (ptr : Str) :
    (∀ e, iterParts ptr = .error e → e = .refResolution) ∧
    ((∃ e, iterParts ptr = .error e) ↔ ptr ≠ [] ∧ ptr.head? ≠ some '/') := by
  unfold iterParts
  cases ptr with
  | nil => simp [splitOn]
  | cons c t =>
    simp only [splitOn]
    by_cases h : c = '/'
    · simp [h]
    · simp only [h, if_false]
      cases hs : splitOn '/' t with
      | nil => exact absurd hs (splitOn_ne_nil _ _)
      | cons p ps => simp [h]

example : iterParts "a/b".toList = .error .refResolution := by rfl

/-- C02. On pointers accepted by the strict iteration, the relaxed one adds just the root step. -/
theorem C02_relaxed_vs_strict (ptr : Str) (parts : List Str) (h : iterParts ptr = .ok parts) :
    iterPartsRelaxed ptr = [] :: parts := by
  unfold iterParts at h
  unfold iterPartsRelaxed
  split at h
  · next ps hs => injection h with h; subst h; simp [hs]; decide
  · cases h

/-- C02. Relative paths too: joining escaped parts by slashes and splitting gives them back. -/
theorem C02_relaxed_join (parts : List Str) (hne : parts ≠ []) :
    iterPartsRelaxed (join ['/'] (parts.map escapePart)) = parts := by
  unfold iterPartsRelaxed
  rw [splitOn_join _ (by simpa using hne)]
  · simp [Function.comp_def, C01_unescape_escape]
  · intro p hp
    obtain ⟨q, _, rfl⟩ := List.mem_map.1 hp
    exact C01_escape_no_slash q

example : iterPartsRelaxed "a~1b/c".toList = ["a/b".toList, "c".toList] := by decide

end Props
