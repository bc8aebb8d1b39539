import Verif.Model.Urls
import Verif.Spec.Urls
import Verif.Lemmas.Str
import Verif.Lemmas.MapPath
/-
Lemmas about the model of `urllib` and of the functions that turn paths into URLs.
-/
namespace Lemmas
open Py Model Spec

/-! ### Characters of encoded texts -/

theorem hexValue_hexUpper (n : Nat) (h : n < 16) : hexValue (hexUpper n) = some n := by
  have : ∀ m : Fin 16, hexValue (hexUpper m.val) = some m.val := by decide
  exact this ⟨n, h⟩

theorem quoteSafe_hexUpper (n : Nat) (h : n < 16) : quoteSafe (hexUpper n) = true ∧ hexUpper n ≠ '/' := by
  have : ∀ m : Fin 16, quoteSafe (hexUpper m.val) = true ∧ hexUpper m.val ≠ '/' := by decide
  exact this ⟨n, h⟩

theorem mem_pct {x : Char} {b : UInt8} (h : x ∈ pct b) : (quoteSafe x = true ∨ x = '%') ∧ x ≠ '/' := by
  have hb := b.toNat_lt
  simp only [pct, List.mem_cons, List.not_mem_nil, or_false] at h
  rcases h with h | h | h
  · subst h; decide
  · subst h
    have := quoteSafe_hexUpper (b.toNat / 16) (by omega)
    exact ⟨Or.inl this.1, this.2⟩
  · subst h
    have := quoteSafe_hexUpper (b.toNat % 16) (by omega)
    exact ⟨Or.inl this.1, this.2⟩

theorem mem_quoteChar {x c : Char} (h : x ∈ quoteChar c) :
    (quoteSafe x = true ∨ x = '%') ∧ (x = '/' → c = '/') := by
  unfold quoteChar at h
  split at h
  · next hc =>
    simp only [List.mem_singleton] at h
    subst h; exact ⟨Or.inl hc, fun h => h⟩
  · obtain ⟨b, _, hb⟩ := List.mem_flatMap.mp h
    have := mem_pct hb
    exact ⟨this.1, fun e => absurd e this.2⟩

theorem mem_quote {x : Char} {s : Str} (h : x ∈ quote s) : quoteSafe x = true ∨ x = '%' := by
  obtain ⟨c, _, hc⟩ := List.mem_flatMap.mp h
  exact (mem_quoteChar hc).1

theorem slash_mem_quote {s : Str} (h : '/' ∈ quote s) : '/' ∈ s := by
  obtain ⟨c, hs, hc⟩ := List.mem_flatMap.mp h
  exact (mem_quoteChar hc).2 rfl ▸ hs

theorem quote_append (a b : Str) : quote (a ++ b) = quote a ++ quote b := by simp [quote]

theorem quote_cons (c : Char) (s : Str) : quote (c :: s) = quoteChar c ++ quote s := by simp [quote]

theorem quote_slash (s : Str) : quote ('/' :: s) = '/' :: quote s := by
  rw [quote_cons]; rfl

theorem quote_join (ns : List Str) : quote (join ['/'] ns) = join ['/'] (ns.map quote) := by
  induction ns with
  | nil => rfl
  | cons n ns ih =>
    cases ns with
    | nil => simp [join]
    | cons m ms =>
      simp only [join, List.map_cons, quote_append] at ih ⊢
      rw [ih]; rfl

/-- The first character of an encoded character. -/
theorem quoteChar_cases (c : Char) : quoteChar c = [c] ∨ ∃ t, quoteChar c = '%' :: t := by
  unfold quoteChar
  split
  · exact Or.inl rfl
  · right
    have : 0 < (String.utf8EncodeChar c).length := by
      rw [String.length_utf8EncodeChar]; exact Char.utf8Size_pos c
    cases h : String.utf8EncodeChar c with
    | nil => rw [h] at this; simp at this
    | cons b bs =>
      exact ⟨hexUpper (b.toNat / 16) :: hexUpper (b.toNat % 16) :: bs.flatMap pct, by simp [pct]⟩

theorem quote_eq_nil {s : Str} : quote s = [] ↔ s = [] := by
  cases s with
  | nil => simp [quote]
  | cons c s =>
    rw [quote_cons]
    rcases quoteChar_cases c with h | ⟨t, h⟩ <;> simp [h]

theorem quote_eq_dot {s : Str} (h : quote s = ['.']) : s = ['.'] := by
  cases s with
  | nil => simp [quote] at h
  | cons c s =>
    rw [quote_cons] at h
    rcases quoteChar_cases c with hc | ⟨t, hc⟩
    · rw [hc] at h
      simp only [List.cons_append, List.nil_append, List.cons.injEq] at h
      rw [h.1, quote_eq_nil.mp h.2]
    · rw [hc] at h; simp at h

theorem quote_eq_dotdot {s : Str} (h : quote s = ['.', '.']) : s = ['.', '.'] := by
  cases s with
  | nil => simp [quote] at h
  | cons c s =>
    rw [quote_cons] at h
    rcases quoteChar_cases c with hc | ⟨t, hc⟩
    · rw [hc] at h
      simp only [List.cons_append, List.nil_append, List.cons.injEq] at h
      rw [h.1, quote_eq_dot h.2]
    · rw [hc] at h; simp at h

theorem fileName_quote {n : Str} (h : FileName n) : FileName (quote n) :=
  ⟨fun e => h.1 (quote_eq_nil.mp e), fun e => h.2.1 (slash_mem_quote e),
   fun e => h.2.2.1 (quote_eq_dot e), fun e => h.2.2.2 (quote_eq_dotdot e)⟩

/-! ### What encoded texts are read as -/

theorem hexDigit_upper (n : Nat) (h : n < 16) : HexDigit n (hexUpper n) := by
  have : ∀ m : Fin 16, "0123456789ABCDEF".toList[m.val]? = some (hexUpper m.val) := by decide
  exact .inl (this ⟨n, h⟩)

theorem hexValue_digit {n : Nat} {c : Char} (hn : n < 16) (h : HexDigit n c) : hexValue c = some n := by
  have h1 : ∀ m : Fin 16, ("0123456789ABCDEF".toList[m.val]?).map hexValue = some (some m.val) := by decide
  have h2 : ∀ m : Fin 16, ("0123456789abcdef".toList[m.val]?).map hexValue = some (some m.val) := by decide
  rcases h with h | h
  · have := h1 ⟨n, hn⟩
    dsimp only at this
    rw [h] at this
    exact Option.some.inj this
  · have := h2 ⟨n, hn⟩
    dsimp only at this
    rw [h] at this
    exact Option.some.inj this

theorem pctBytes_pct (bs : List UInt8) : PctBytes bs (bs.flatMap pct) := by
  induction bs with
  | nil => exact .nil
  | cons b bs ih =>
    have hb := b.toNat_lt
    exact .cons (hexDigit_upper _ (by omega)) (hexDigit_upper _ (by omega)) ih

/-- `u` is the text `s`, some of its characters percent-encoded, those left not being `%`. -/
inductive Reads : Str → Str → Prop
  | nil : Reads [] []
  | plain {c u s} (h : c ≠ '%') (r : Reads u s) : Reads (c :: u) (c :: s)
  | coded {u s} (c : Char) {w : Str} (hw : PctBytes (String.utf8EncodeChar c) w) (r : Reads u s) : Reads (w ++ u) (c :: s)

theorem Reads.append {u s u' s' : Str} (h : Reads u s) (h' : Reads u' s') : Reads (u ++ u') (s ++ s') := by
  induction h with
  | nil => exact h'
  | plain hc _ ih => exact Reads.plain hc ih
  | coded c hw _ ih => rw [List.append_assoc]; exact Reads.coded c hw ih

theorem Reads.refl {s : Str} (h : '%' ∉ s) : Reads s s := by
  induction s with
  | nil => exact .nil
  | cons c s ih =>
    simp only [List.mem_cons, not_or] at h
    exact .plain (fun e => h.1 e.symm) (ih h.2)

theorem reads_quote (s : Str) : Reads (quote s) s := by
  induction s with
  | nil => exact .nil
  | cons c s ih =>
    rw [quote_cons]
    unfold quoteChar
    split
    · next h => exact Reads.plain (fun e => by subst e; revert h; decide) ih
    · exact Reads.coded c (pctBytes_pct _) ih

theorem utf8_append (a b : Str) : utf8 (a ++ b) = utf8 a ++ utf8 b := by simp [utf8]

theorem utf8EncodeChar_ascii {c : Char} (h : c.toNat < 128) :
    String.utf8EncodeChar c = [UInt8.ofNat c.toNat] := by
  have h' : c.val ≤ 0x7f := by
    rw [UInt32.le_iff_toNat_le]; show c.toNat ≤ 127; omega
  have hs : c.utf8Size = 1 := by simp [Char.utf8Size, h']
  have := String.utf8EncodeChar_eq_singleton hs
  rw [this]
  rfl

theorem utf8_snoc {pre : Str} {c : Char} : utf8 (pre ++ [c]) = utf8 pre ++ String.utf8EncodeChar c := by
  simp [utf8]

theorem unquoteGo_plain (U : Utf8Lib) (acc : List UInt8) {c : Char} (h : c ≠ '%') (cs : Str) :
    unquoteGo U acc (c :: cs) =
      if c.toNat < 128 then unquoteGo U (acc ++ [UInt8.ofNat c.toNat]) cs
      else U.dec acc ++ c :: unquoteGo U [] cs := by
  rw [unquoteGo]
  intro _ _ _ e _
  exact h e

theorem unquoteGo_pcts (U : Utf8Lib) {bs : List UInt8} {w : Str} (hw : PctBytes bs w) :
    ∀ (acc : List UInt8) (u : Str), unquoteGo U acc (w ++ u) = unquoteGo U (acc ++ bs) u := by
  induction hw with
  | nil => intro acc u; simp
  | @cons b bs h l w h1 h2 _ ih =>
    intro acc u
    have hb := b.toNat_lt
    have hd : 16 * (b.toNat / 16) + b.toNat % 16 = b.toNat := by omega
    simp only [List.cons_append]
    rw [unquoteGo, hexValue_digit (by omega) h1, hexValue_digit (by omega) h2]
    simp only [hd]
    rw [ih]
    simp

theorem unquoteGo_reads (U : Utf8Lib) {u s : Str} (h : Reads u s) :
    ∀ pre : Str, unquoteGo U (utf8 pre) u = pre ++ s := by
  induction h with
  | nil => intro pre; simp [unquoteGo, U.dec_utf8]
  | @plain c u s hc _ ih =>
    intro pre
    rw [unquoteGo_plain U _ hc]
    split
    · next hl => rw [← utf8EncodeChar_ascii hl, ← utf8_snoc, ih]; simp
    · have := ih []
      simp only [utf8, List.flatMap_nil, List.nil_append] at this
      rw [this, U.dec_utf8]
  | coded c hw _ ih =>
    intro pre
    rw [unquoteGo_pcts U hw, ← utf8_snoc, ih]
    simp

theorem Reads.eq_of_plain {u s : Str} (h : Reads u s) (hp : '%' ∉ u) : u = s := by
  induction h with
  | nil => rfl
  | plain _ _ ih =>
    simp only [List.mem_cons, not_or] at hp
    rw [ih hp.2]
  | @coded _ _ c w hw _ _ =>
    exfalso
    apply hp
    have : 0 < (String.utf8EncodeChar c).length := by
      rw [String.length_utf8EncodeChar]; exact Char.utf8Size_pos c
    cases h : String.utf8EncodeChar c with
    | nil => rw [h] at this; simp at this
    | cons b bs =>
      rw [h] at hw
      cases hw
      simp

/-- Decoding a text gives what it reads as. -/
theorem unquote_reads (U : Utf8Lib) {u s : Str} (h : Reads u s) : unquote U u = s := by
  unfold unquote
  split
  · exact unquoteGo_reads U h []
  · next hp => exact h.eq_of_plain hp

end Lemmas
