import Verif.Lemmas.Regex
import Verif.Spec.Case
set_option linter.unusedSimpArgs false
namespace Py
open Spec

theorem _root_.Spec.Recased.refl (s : Str) : Recased s s := by
  induction s with
  | nil => trivial
  | cons x s ih => exact ⟨.inl rfl, ih⟩

theorem _root_.Spec.Recased.length {s t : Str} (h : Recased s t) : s.length = t.length := by
  induction s generalizing t with
  | nil => cases t with
    | nil => rfl
    | cons => exact absurd h (by simp [Recased])
  | cons x s ih => cases t with
    | nil => exact absurd h (by simp [Recased])
    | cons y t => simp [ih h.2]

theorem _root_.Spec.Recased.take {s t : Str} (h : Recased s t) (n : Nat) : Recased (s.take n) (t.take n) := by
  induction s generalizing t n with
  | nil => cases t with
    | nil => simp [Recased]
    | cons => exact absurd h (by simp [Recased])
  | cons x s ih => cases t with
    | nil => exact absurd h (by simp [Recased])
    | cons y t =>
      cases n with
      | zero => trivial
      | succ n => exact ⟨h.1, ih h.2 n⟩

theorem _root_.Spec.Recased.upper {s t : Str} (h : Recased s t) : Py.upper s = Py.upper t := by
  induction s generalizing t with
  | nil => cases t with
    | nil => rfl
    | cons => exact absurd h (by simp [Recased])
  | cons x s ih => cases t with
    | nil => exact absurd h (by simp [Recased])
    | cons y t =>
      have hx : upperChar x = upperChar y := by
        rcases h.1 with e | ⟨_, _, e⟩
        · rw [e]
        · exact e
      simp only [Py.upper, List.map_cons, hx]
      congr 1
      exact ih h.2

def RecasedC (c d : Caps) : Prop := ∀ n, RecasedO (c n) (d n)

/-- Results that agree. -/
def Agree {α : Type} (Q : α → α → Prop) : Option α → Option α → Prop
  | none, none => True
  | some x, some y => Q x y
  | _, _ => False

theorem Agree.or {α : Type} {Q : α → α → Prop} {a b a' b' : Option α} (h1 : Agree Q a a') (h2 : Agree Q b b') :
    Agree Q (a.or b) (a'.or b') := by
  cases a <;> cases a' <;> simp [Agree] at h1 ⊢
  · exact h2
  · exact h1

/-- Every class treats both cases of a letter alike. -/
def Re.CaseClosed : Re → Prop
  | .eps => True
  | .cls p => ∀ x y, SameLetter x y → p x = p y
  | .seq a b => a.CaseClosed ∧ b.CaseClosed
  | .alt a b => a.CaseClosed ∧ b.CaseClosed
  | .star a => a.CaseClosed
  | .lazyStar a => a.CaseClosed
  | .grp _ a => a.CaseClosed
  | .backref _ => False
  | .eos => True

theorem RecasedC.put {c d : Caps} (h : RecasedC c d) {s t : Str} (hs : Recased s t) (n : String) :
    RecasedC (c.put n s) (d.put n t) := by
  intro x
  by_cases hx : x = n
  · simp [Caps.put, hx, RecasedO, hs]
  · simp [Caps.put, hx]; exact h x

theorem sameLetter_newline {x : Char} (h : SameLetter x '\n' ∨ SameLetter '\n' x) : x = '\n' := by
  have : isLetter '\n' = false := by decide
  rcases h with (e | ⟨_, h, _⟩) | (e | ⟨h, _, _⟩)
  · exact e
  · rw [this] at h; simp at h
  · exact e.symm
  · rw [this] at h; simp at h

theorem atEnd_recased {s t : Str} (h : Recased s t) : atEnd s = atEnd t := by
  match s, t with
  | [], [] => rfl
  | [], _ :: _ => exact absurd h (by simp [Recased])
  | _ :: _, [] => exact absurd h (by simp [Recased])
  | [x], [y] =>
    by_cases hx : x = '\n'
    · subst hx
      rw [sameLetter_newline (.inr h.1)]
    · have hy : y ≠ '\n' := by
        rintro rfl
        exact hx (sameLetter_newline (.inl h.1))
      simp only [atEnd]
      rw [beq_eq_false_iff_ne.2 (show [x] ≠ ['\n'] by simpa using hx), beq_eq_false_iff_ne.2 (show [y] ≠ ['\n'] by simpa using hy)]
      rfl
  | [_], _ :: _ :: _ => exact absurd h.2 (by simp [Recased])
  | _ :: _ :: _, [_] => exact absurd h.2 (by simp [Recased])
  | _ :: _ :: _, _ :: _ :: _ => simp [atEnd]

/-- Matching commutes with changing the case of letters. -/
theorem m_recased {α : Type} (Q : α → α → Prop) (a : Re) (ha : a.CaseClosed) :
    ∀ (s t : Str) (c d : Caps) (k l : Str → Caps → Option α), Recased s t → RecasedC c d →
      (∀ s t c d, Recased s t → RecasedC c d → Agree Q (k s c) (l t d)) →
      Agree Q (a.m s c k) (a.m t d l) := by
  induction a with
  | eps => intro s t c d k l hs hc hk; exact hk s t c d hs hc
  | cls p =>
    intro s t c d k l hs hc hk
    match s, t with
    | [], [] => simp [Agree]
    | [], _ :: _ => exact absurd hs (by simp [Recased])
    | _ :: _, [] => exact absurd hs (by simp [Recased])
    | x :: s, y :: t =>
      rw [m_cls_cons, m_cls_cons, ha x y hs.1]
      split
      · exact hk s t c d hs.2 hc
      · simp [Agree]
  | seq a b iha ihb =>
    intro s t c d k l hs hc hk
    exact iha ha.1 s t c d _ _ hs hc (fun s t c d hs hc => ihb ha.2 s t c d k l hs hc hk)
  | alt a b iha ihb =>
    intro s t c d k l hs hc hk
    exact (iha ha.1 s t c d k l hs hc hk).or (ihb ha.2 s t c d k l hs hc hk)
  | star a ih =>
    intro s t c d k l hs hc hk
    have key : ∀ n s t c d, Recased s t → RecasedC c d →
        Agree Q (starM (fun s c k => a.m s c k) k n s c) (starM (fun s c k => a.m s c k) l n t d) := by
      intro n
      induction n with
      | zero => intro s t c d hs hc; exact hk s t c d hs hc
      | succ n ihn =>
        intro s t c d hs hc
        rw [starM, starM]
        refine Agree.or (ih ha _ _ _ _ _ _ hs hc ?_) (hk s t c d hs hc)
        intro s' t' c' d' hs' hc'
        rw [hs.length, hs'.length]
        split
        · exact ihn _ _ _ _ hs' hc'
        · simp [Agree]
    show Agree Q (starM _ k s.length s c) (starM _ l t.length t d)
    rw [hs.length]
    exact key _ _ _ _ _ hs hc
  | lazyStar a ih =>
    intro s t c d k l hs hc hk
    have key : ∀ n s t c d, Recased s t → RecasedC c d →
        Agree Q (lazyM (fun s c k => a.m s c k) k n s c) (lazyM (fun s c k => a.m s c k) l n t d) := by
      intro n
      induction n with
      | zero => intro s t c d hs hc; exact hk s t c d hs hc
      | succ n ihn =>
        intro s t c d hs hc
        rw [lazyM, lazyM]
        refine Agree.or (hk s t c d hs hc) (ih ha _ _ _ _ _ _ hs hc ?_)
        intro s' t' c' d' hs' hc'
        rw [hs.length, hs'.length]
        split
        · exact ihn _ _ _ _ hs' hc'
        · simp [Agree]
    show Agree Q (lazyM _ k s.length s c) (lazyM _ l t.length t d)
    rw [hs.length]
    exact key _ _ _ _ _ hs hc
  | grp n a ih =>
    intro s t c d k l hs hc hk
    refine ih ha s t c d _ _ hs hc ?_
    intro s' t' c' d' hs' hc'
    rw [hs.length, hs'.length]
    exact hk _ _ _ _ hs' (hc'.put (hs.take _) n)
  | backref n => exact absurd ha (by simp [Re.CaseClosed])
  | eos =>
    intro s t c d k l hs hc hk
    rw [m_eos, m_eos, atEnd_recased hs]
    split
    · exact hk s t c d hs hc
    · simp [Agree]

/-- A check of `CaseClosed` over the letters. -/
def Re.caseCheck : Re → Bool
  | .eps => true
  | .cls p => "abcdefghijklmnopqrstuvwxyzABCDEFGHIJKLMNOPQRSTUVWXYZ".toList.all (fun x => p x == p (upperChar x))
  | .seq a b => a.caseCheck && b.caseCheck
  | .alt a b => a.caseCheck && b.caseCheck
  | .star a => a.caseCheck
  | .lazyStar a => a.caseCheck
  | .grp _ a => a.caseCheck
  | .backref _ => false
  | .eos => true

theorem caseClosed_of_check (a : Re) (h : a.caseCheck = true) : a.CaseClosed := by
  induction a with
  | eps => trivial
  | cls p =>
    intro x y hxy
    rcases hxy with rfl | ⟨hx, hy, e⟩
    · rfl
    · simp only [Re.caseCheck, List.all_eq_true, beq_iff_eq] at h
      rw [h x (by simpa [isLetter] using hx), h y (by simpa [isLetter] using hy), e]
  | seq a b iha ihb =>
    simp only [Re.caseCheck, Bool.and_eq_true] at h
    exact ⟨iha h.1, ihb h.2⟩
  | alt a b iha ihb =>
    simp only [Re.caseCheck, Bool.and_eq_true] at h
    exact ⟨iha h.1, ihb h.2⟩
  | star a ih => exact ih h
  | lazyStar a ih => exact ih h
  | grp n a ih => exact ih h
  | backref n => simp [Re.caseCheck] at h
  | eos => trivial

/-- Matching a re-cased text gives the re-cased groups. -/
theorem match_recased (a : Re) (ha : a.CaseClosed) {s t : Str} (h : Recased s t) :
    Agree (fun x y : Str × Caps => Recased x.1 y.1 ∧ RecasedC x.2 y.2) (a.match? s) (a.match? t) :=
  m_recased _ a ha s t _ _ _ _ h (fun _ => trivial) (fun _ _ _ _ h1 h2 => ⟨h1, h2⟩)

end Py
