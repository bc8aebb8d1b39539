import Verif.Py.Regex
set_option linter.unusedSimpArgs false
namespace Py

variable {α : Type}

@[simp] theorem m_eps (s : Str) (c : Caps) (k : Str → Caps → Option α) : Re.m .eps s c k = k s c := rfl
@[simp] theorem m_cls_nil (p : Char → Bool) (c : Caps) (k : Str → Caps → Option α) : Re.m (.cls p) [] c k = none := rfl
@[simp] theorem m_cls_cons (p : Char → Bool) (x : Char) (t : Str) (c : Caps) (k : Str → Caps → Option α) :
    Re.m (.cls p) (x :: t) c k = if p x then k t c else none := rfl
@[simp] theorem m_seq (a b : Re) (s : Str) (c : Caps) (k : Str → Caps → Option α) :
    Re.m (.seq a b) s c k = a.m s c (fun s' c' => b.m s' c' k) := rfl
@[simp] theorem m_alt (a b : Re) (s : Str) (c : Caps) (k : Str → Caps → Option α) :
    Re.m (.alt a b) s c k = (a.m s c k).or (b.m s c k) := rfl
@[simp] theorem m_opt (a : Re) (s : Str) (c : Caps) (k : Str → Caps → Option α) :
    Re.m (Re.opt a) s c k = (a.m s c k).or (k s c) := rfl
theorem m_grp (n : String) (a : Re) (s : Str) (c : Caps) (k : Str → Caps → Option α) :
    Re.m (.grp n a) s c k = a.m s c (fun s' c' => k s' (c'.put n (s.take (s.length - s'.length)))) := rfl
@[simp] theorem m_eos (s : Str) (c : Caps) (k : Str → Caps → Option α) :
    Re.m .eos s c k = if atEnd s then k s c else none := rfl
theorem m_plus (a : Re) (s : Str) (c : Caps) (k : Str → Caps → Option α) :
    Re.m (Re.plus a) s c k = a.m s c (fun s' c' => (Re.star a).m s' c' k) := rfl
@[simp] theorem m_chr_cons (x y : Char) (t : Str) (c : Caps) (k : Str → Caps → Option α) :
    Re.m (Re.chr x) (y :: t) c k = if y == x then k t c else none := rfl
@[simp] theorem m_chr_nil (x : Char) (c : Caps) (k : Str → Caps → Option α) : Re.m (Re.chr x) [] c k = none := rfl
@[simp] theorem m_chrI_cons (x y : Char) (t : Str) (c : Caps) (k : Str → Caps → Option α) :
    Re.m (Re.chrI x) (y :: t) c k = if y == x || y == lowerChar x then k t c else none := rfl
@[simp] theorem m_chrI_nil (x : Char) (c : Caps) (k : Str → Caps → Option α) : Re.m (Re.chrI x) [] c k = none := rfl

@[simp] theorem take_prefix (t u : Str) : (t ++ u).take ((t ++ u).length - u.length) = t := by
  simp

theorem star_cls_nil (p : Char → Bool) (c : Caps) (k : Str → Caps → Option α) :
    Re.m (.star (.cls p)) [] c k = k [] c := rfl

theorem star_cls_cons (p : Char → Bool) (x : Char) (t : Str) (c : Caps) (k : Str → Caps → Option α) :
    Re.m (.star (.cls p)) (x :: t) c k =
      if p x then (Re.m (.star (.cls p)) t c k).or (k (x :: t) c) else k (x :: t) c := by
  have h : Re.m (.star (.cls p)) (x :: t) c k =
      (if p x then (if t.length < (x :: t).length then
        starM (fun s c k => (Re.cls p).m s c k) k t.length t c else none) else none).or (k (x :: t) c) := rfl
  rw [h, if_pos (by simp : t.length < (x :: t).length)]
  by_cases hp : p x = true
  · simp only [hp, if_true]; rfl
  · simp only [hp]; rfl

/-- The longest run is tried first. -/
theorem star_cls_max (p : Char → Bool) (t u : Str) (c : Caps) (k : Str → Caps → Option α) (r : α)
    (ht : ∀ x ∈ t, p x = true) (hu : ∀ x, u.head? = some x → p x = false) (hk : k u c = some r) :
    Re.m (.star (.cls p)) (t ++ u) c k = some r := by
  induction t with
  | nil =>
    cases u with
    | nil => exact hk
    | cons x u =>
      rw [List.nil_append, star_cls_cons, hu x rfl]
      exact hk
  | cons x t ih =>
    rw [List.cons_append, star_cls_cons, ht x (by simp), if_pos rfl, ih (fun y hy => ht y (by simp [hy]))]
    rfl

/-- Nothing matches if nothing does after any part of the run. -/
theorem star_cls_none (p : Char → Bool) (t u : Str) (c : Caps) (k : Str → Caps → Option α)
    (hu : ∀ x, u.head? = some x → p x = false) (hk : ∀ t2, t2 <:+ t → k (t2 ++ u) c = none) :
    Re.m (.star (.cls p)) (t ++ u) c k = none := by
  induction t with
  | nil =>
    have := hk [] (List.suffix_refl _)
    cases u with
    | nil => exact this
    | cons x u =>
      rw [List.nil_append, star_cls_cons, hu x rfl]
      exact this
  | cons x t ih =>
    rw [List.cons_append, star_cls_cons]
    have h1 := ih (fun t2 h2 => hk t2 (List.suffix_cons_iff.2 (.inr h2)))
    have h2 := hk (x :: t) (List.suffix_refl _)
    rw [List.cons_append] at h2
    rw [h1, h2]
    split <;> rfl

theorem star_cls_notmem (p : Char → Bool) (s : Str) (c : Caps) (k : Str → Caps → Option α)
    (hk : ∀ t2, t2 <:+ s → k t2 c = none) : Re.m (.star (.cls p)) s c k = none := by
  induction s with
  | nil => exact hk [] (List.suffix_refl _)
  | cons x t ih =>
    rw [star_cls_cons, ih (fun t2 h2 => hk t2 (List.suffix_cons_iff.2 (.inr h2))), hk _ (List.suffix_refl _)]
    split <;> rfl

theorem plus_cls_max (p : Char → Bool) (t u : Str) (c : Caps) (k : Str → Caps → Option α) (r : α) (hne : t ≠ [])
    (ht : ∀ x ∈ t, p x = true) (hu : ∀ x, u.head? = some x → p x = false) (hk : k u c = some r) :
    Re.m (Re.plus (.cls p)) (t ++ u) c k = some r := by
  cases t with
  | nil => exact absurd rfl hne
  | cons x t =>
    rw [m_plus, List.cons_append, m_cls_cons, ht x (by simp), if_pos rfl]
    exact star_cls_max p t u c k r (fun y hy => ht y (by simp [hy])) hu hk

theorem plus_cls_none (p : Char → Bool) (s : Str) (c : Caps) (k : Str → Caps → Option α)
    (hk : ∀ t2, t2 <:+ s.tail → k t2 c = none) : Re.m (Re.plus (.cls p)) s c k = none := by
  cases s with
  | nil => rfl
  | cons x t =>
    rw [m_plus, m_cls_cons]
    split
    · exact star_cls_notmem p t c k hk
    · rfl

theorem plus_cls_head (p : Char → Bool) (s : Str) (c : Caps) (k : Str → Caps → Option α)
    (hk : ∀ x, s.head? = some x → p x = false) : Re.m (Re.plus (.cls p)) s c k = none := by
  cases s with
  | nil => rfl
  | cons x t => rw [m_plus, m_cls_cons, hk x rfl]; rfl

@[simp] theorem put_same (c : Caps) (n : String) (t : Str) : c.put n t n = some t := by simp [Caps.put]
theorem put_other (c : Caps) (n x : String) (t : Str) (h : x ≠ n) : c.put n t x = c x := by simp [Caps.put, h]

end Py
