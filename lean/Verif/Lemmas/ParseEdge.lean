import Verif.Lemmas.Regex
import Verif.Model.Parse
import Verif.Spec.Xlref
set_option linter.unusedSimpArgs false
namespace Model
open Py Spec

variable {α : Type}

theorem isDigitU_of_isDigit {c : Char} (h : c.isDigit = true) : isDigitU c = true := by
  have : 48 ≤ c.toNat ∧ c.toNat ≤ 57 := by
    simp only [Char.isDigit, Bool.and_eq_true, decide_eq_true_eq, ge_iff_le, UInt32.le_iff_toNat_le] at h
    exact h
  simp [isDigitU, decVal, this]

theorem isDigit_range {c : Char} (h : c.isDigit = true) : 48 ≤ c.toNat ∧ c.toNat ≤ 57 := by
  simp only [Char.isDigit, Bool.and_eq_true, decide_eq_true_eq, ge_iff_le, UInt32.le_iff_toNat_le] at h
  exact h

theorem isDigit19_of {c : Char} (h : c.isDigit = true) (h0 : c ≠ '0') : isDigit19 c = true := by
  have h1 := isDigit_range h
  have : c.toNat ≠ 48 := fun e => h0 (Char.toNat_inj.1 (by rw [e]; rfl))
  simp [isDigit19]; omega

theorem isDigit_ne {c d : Char} (h : c.isDigit = true) (hd : d.toNat < 48 ∨ 57 < d.toNat) : c ≠ d := by
  rintro rfl
  have := isDigit_range h
  omega

theorem isDigit_not_AZ {c : Char} (h : c.isDigit = true) : isAZi c = false := by
  have h1 := isDigit_range h
  simp [isAZi]; omega

theorem isDigit_not_marginDot {c : Char} (h : c.isDigit = true) : isMarginDot c = false := by
  have h1 := isDigit_ne (d := '_') h (by decide)
  have h2 := isDigit_ne (d := '^') h (by decide)
  have h3 := isDigit_ne (d := '.') h (by decide)
  simp [isMarginDot, h1, h2, h3]

theorem isLetter_AZ : ∀ {c : Char}, isLetter c = true → isAZi c = true ∧ c ≠ '!' := by
  intro c h
  have : c ∈ "abcdefghijklmnopqrstuvwxyzABCDEFGHIJKLMNOPQRSTUVWXYZ".toList := by
    simpa [isLetter] using h
  have key : ∀ c ∈ "abcdefghijklmnopqrstuvwxyzABCDEFGHIJKLMNOPQRSTUVWXYZ".toList, isAZi c = true ∧ c ≠ '!' := by
    decide
  exact key c this

/-- Nothing matches unless at the end or at a colon. -/
def Stops (k : Str → Caps → Option α) : Prop :=
  ∀ x t c, x ≠ ':' → x ≠ '\n' → k (x :: t) c = none

/-- What may follow an edge. -/
def EdgeEnd (u : Str) : Prop := u = [] ∨ ∃ t, u = ':' :: t

theorem grp_of {a : Re} {n : String} {t u : Str} {c c' : Caps} {k : Str → Caps → Option α} {r : α}
    (h : ∀ k' : Str → Caps → Option α, k' u c' = some r → a.m (t ++ u) c k' = some r)
    (hk : k u (c'.put n t) = some r) : Re.m (.grp n a) (t ++ u) c k = some r := by
  rw [m_grp]
  apply h
  simp only [take_prefix]
  exact hk

theorem num_ok {t u : Str} {c : Caps} {k : Str → Caps → Option α} {r : α} (ht : IsNum t)
    (hu : ∀ x, u.head? = some x → isDigitU x = false) (hk : k u c = some r) :
    reNum.m (t ++ u) c k = some r := by
  obtain ⟨d, t, rfl, h1, h2, h3⟩ := ht
  simp only [reNum, m_seq, List.cons_append, m_cls_cons, isDigit19_of h1 h2, if_true]
  exact star_cls_max _ t u c k r (fun x hx => isDigitU_of_isDigit (h3 x hx)) hu hk

theorem num_none {t u : Str} {c : Caps} {k : Str → Caps → Option α} (ht : IsNum t)
    (hu : ∀ x, u.head? = some x → isDigitU x = false)
    (hk : ∀ t2, (∀ x ∈ t2, x.isDigit = true) → k (t2 ++ u) c = none) :
    reNum.m (t ++ u) c k = none := by
  obtain ⟨d, t, rfl, h1, h2, h3⟩ := ht
  simp only [reNum, m_seq, List.cons_append, m_cls_cons, isDigit19_of h1 h2, if_true]
  exact star_cls_none _ t u c k hu (fun t2 h => hk t2 (fun x hx => h3 x (h.subset hx)))

theorem num_head {s : Str} {c : Caps} {k : Str → Caps → Option α}
    (hs : ∀ x, s.head? = some x → isDigit19 x = false) : reNum.m s c k = none := by
  cases s with
  | nil => rfl
  | cons x t => simp [reNum, hs x rfl]

theorem special_ok {dot : Bool} {p : Char → Bool} (hp : p = if dot then isMarginDot else isMargin) {s : Str}
    (h : IsSpecial dot s) : ∃ x, s = [x] ∧ p x = true ∧ isMarginDot x = true ∧ isAZi x = false ∧ isDigit19 x = false
      ∧ isDigitU x = false ∧ isSpaceU x = false ∧ x ≠ ':' ∧ x ≠ '!' ∧ x ≠ '-' := by
  subst hp
  rcases h with rfl | rfl | ⟨rfl, rfl⟩
  · exact ⟨'_', rfl, by cases dot <;> decide, by decide⟩
  · exact ⟨'^', rfl, by cases dot <;> decide, by decide⟩
  · exact ⟨'.', rfl, by decide, by decide⟩

theorem num_head' {t : Str} (h : IsNum t) : ∃ x t', t = x :: t' ∧ x.isDigit = true ∧ isDigit19 x = true := by
  obtain ⟨d, t, rfl, h1, h2, _⟩ := h
  exact ⟨d, t, rfl, h1, isDigit19_of h1 h2⟩

/-- Captures after a cell. -/
def cellCaps (n : EdgeNames) (e : CellText) (c : Caps) : Caps := match e with
  | .a1 col row => (c.put n.col col).put n.row row
  | .rc _ row _ col => (c.put n.row2 row).put n.col2 col

theorem a1_ok {n : EdgeNames} {dot : Bool} {p : Char → Bool} (hp : p = if dot then isMarginDot else isMargin)
    {col row u : Str} {c : Caps} {k : Str → Caps → Option α} {r : α} (h : (CellText.a1 col row).Ok dot)
    (hu : ∀ x, u.head? = some x → isDigitU x = false)
    (hk : k u ((c.put n.col col).put n.row row) = some r) :
    (reA1 n p).m (col ++ (row ++ u)) c k = some r := by
  obtain ⟨hcol, hrow⟩ := h
  have hr : Re.m (.grp n.row (.alt reNum (.cls p))) (row ++ u) (c.put n.col col) k = some r := by
    apply grp_of (c' := c.put n.col col) _ hk
    intro k' hk'
    rcases hrow with hrow | hrow
    · rw [m_alt, num_ok hrow hu hk', Option.some_or]
    · obtain ⟨x, rfl, h1, _, _, h3, _⟩ := special_ok hp hrow
      rw [m_alt, num_head (by simp [h3]), Option.none_or]
      simp [h1, hk']
  have hrow' : ∀ x, (row ++ u).head? = some x → isAZi x = false := by
    intro x hx
    rcases hrow with hrow | hrow
    · obtain ⟨d, t', rfl, h1, _⟩ := num_head' hrow
      simp at hx; subst hx; exact isDigit_not_AZ h1
    · obtain ⟨d, rfl, _, _, h2, _⟩ := special_ok hp hrow
      simp at hx; subst hx; exact h2
  simp only [reA1, m_seq]
  apply grp_of (c' := c) _ hr
  intro k' hk'
  rcases hcol with ⟨hne, hl⟩ | hcol
  · rw [m_alt, plus_cls_max _ col _ c k' r hne (fun x hx => (isLetter_AZ (hl x hx)).1) hrow' hk', Option.some_or]
  · obtain ⟨x, rfl, h1, _, h2, _⟩ := special_ok hp hcol
    rw [m_alt, plus_cls_head _ _ _ _ (by simp [h2]), Option.none_or]
    simp [h1, hk']

theorem rcnum_ok {t u : Str} {c : Caps} {k : Str → Caps → Option α} {r : α} (ht : IsRCNum t)
    (hu : ∀ x, u.head? = some x → isDigitU x = false) (hk : k u c = some r) :
    reRCnum.m (t ++ u) c k = some r := by
  rcases ht with h | ⟨t, rfl, h⟩ | h
  · have hd : ∀ k' : Str → Caps → Option α, (Re.chr '-').m (t ++ u) c k' = none := by
      obtain ⟨x, t', rfl, h1, _⟩ := num_head' h
      intro k'
      have := isDigit_ne (d := '-') h1 (by decide)
      simp [this]
    simp only [reRCnum, m_alt, m_seq, m_opt, hd, Option.none_or, num_ok h hu hk, Option.some_or]
  · simp only [reRCnum, m_alt, m_seq, m_opt, List.cons_append, m_chr_cons, beq_self_eq_true, if_true,
      num_ok h hu hk, Option.some_or]
  · obtain ⟨x, rfl, h1, _, _, h3, _, _, _, _, h4⟩ := special_ok rfl h
    have hd : ∀ k' : Str → Caps → Option α, (Re.chr '-').m (x :: u) c k' = none := by
      intro k'; simp [h4]
    have hn := @num_head α (x :: u) c k (by simp [h3])
    simp only [List.cons_append, List.nil_append, reRCnum, m_alt, m_seq, m_opt, hd, hn, Option.none_or, m_cls_cons]
    simp only [if_true] at h1
    simp [h1, hk]

theorem rc_ok {n : EdgeNames} {dot : Bool} {R C : Char}
    {col row u : Str} {c : Caps} {k : Str → Caps → Option α} {r : α} (h : (CellText.rc R row C col).Ok dot)
    (hu : ∀ x, u.head? = some x → isDigitU x = false)
    (hk : k u ((c.put n.row2 row).put n.col2 col) = some r) :
    (reRC n).m (R :: (row ++ C :: (col ++ u))) c k = some r := by
  obtain ⟨hR, hC, hrow, hcol⟩ := h
  have hR' : (R == 'R' || R == lowerChar 'R') = true := by rcases hR with rfl | rfl <;> decide
  have hC' : (C == 'C' || C == lowerChar 'C') = true := by rcases hC with rfl | rfl <;> decide
  simp only [reRC, Re.seqs, m_seq, m_chrI_cons, hR', if_true]
  apply grp_of (c' := c) (fun k' hk' => rcnum_ok hrow (by
    intro x hx; simp at hx; subst hx; rcases hC with rfl | rfl <;> decide) hk')
  simp only [m_chrI_cons, hC', if_true]
  exact grp_of (fun k' hk' => rcnum_ok hcol hu hk') hk

/-- The continuation after a cell matches nothing but moves, a colon or the end. -/
def Stops2 (k : Str → Caps → Option α) : Prop :=
  ∀ x t c, x ≠ ':' → x ≠ '\n' → x ≠ '(' → k (x :: t) c = none

theorem a1_rc_none {n : EdgeNames} {dot : Bool} {p : Char → Bool} (hp : p = if dot then isMarginDot else isMargin)
    {R C : Char} {col row u : Str} {c : Caps} {k : Str → Caps → Option α} (h : (CellText.rc R row C col).Ok dot)
    (hk : Stops2 k) : (reA1 n p).m (R :: (row ++ C :: (col ++ u))) c k = none := by
  obtain ⟨hR, hC, hrow, hcol⟩ := h
  have hpR : p R = false := by subst hp; rcases hR with rfl | rfl <;> cases dot <;> decide
  have hkC : ∀ c, k (C :: (col ++ u)) c = none := by
    intro c; apply hk <;> rcases hC with rfl | rfl <;> decide
  have hCd : isDigitU C = false := by rcases hC with rfl | rfl <;> decide
  have hple : ∀ x, isMarginDot x = false → p x = false := by
    subst hp; intro x hx
    cases dot
    · simp [isMarginDot] at hx; simp [isMargin, hx]
    · exact hx
  have hnohead : ∀ x t, row = x :: t → isAZi x = false := by
    intro x t hx
    rcases hrow with h | ⟨t', rfl, h⟩ | h
    · obtain ⟨d, t', rfl, h1, _⟩ := num_head' h
      simp at hx; rw [← hx.1]; exact isDigit_not_AZ h1
    · simp at hx; rw [← hx.1]; decide
    · obtain ⟨d, rfl, _, _, h2, _⟩ := special_ok rfl h
      simp at hx; rw [← hx.1]; exact h2
  have hrne : row ≠ [] := by
    rcases hrow with h | ⟨t', rfl, h⟩ | h
    · obtain ⟨d, t', rfl, _⟩ := num_head' h; simp
    · simp
    · obtain ⟨d, rfl, _⟩ := special_ok rfl h; simp
  have hrow' : ∀ c, Re.m (.grp n.row (.alt reNum (.cls p))) (row ++ C :: (col ++ u)) c k = none := by
    intro c
    rw [m_grp]
    rcases hrow with h | ⟨t', rfl, h⟩ | h
    · rw [m_alt, num_none h (by simp [hCd]), Option.none_or]
      · obtain ⟨d, t', rfl, h1, _⟩ := num_head' h
        simp [hple d (isDigit_not_marginDot h1)]
      · intro t2 ht2
        cases t2 with
        | nil => exact hkC _
        | cons y t2 =>
          have hy := ht2 y (by simp)
          exact hk _ _ _ (isDigit_ne hy (by decide)) (isDigit_ne hy (by decide)) (isDigit_ne hy (by decide))
    · rw [m_alt, num_head (by simp; decide), Option.none_or]
      simp [hple '-' (by decide)]
    · obtain ⟨d, rfl, _, _, _, h3, _⟩ := special_ok rfl h
      rw [m_alt, num_head (by simp [h3]), Option.none_or]
      simp [hkC]
  simp only [reA1, m_seq]
  rw [m_grp, m_alt, m_plus, m_cls_cons]
  have hstar : ∀ k' : Str → Caps → Option α, k' (row ++ C :: (col ++ u)) c = none →
      (Re.star (.cls isAZi)).m (row ++ C :: (col ++ u)) c k' = none := by
    intro k' hk'
    have := star_cls_none isAZi [] (row ++ C :: (col ++ u)) c k' (by
      intro x hx
      cases row with
      | nil => exact absurd rfl hrne
      | cons y t => simp at hx; subst hx; exact hnohead y t rfl) (by
      intro t2 h2
      have : t2 = [] := by simpa using h2
      subst this; exact hk')
    exact this
  rw [hstar _ (hrow' _)]
  simp [hpR]

theorem mov_mem {m : Str} (h : upper m ∈ allMoves) :
    (∃ a, m = [a] ∧ upperChar a ∈ "LURD".toList) ∨
    (∃ a b, m = [a, b] ∧ [upperChar a, upperChar b] ∈ allMoves) := by
  match m with
  | [] => exfalso; revert h; decide
  | [a] =>
    left; refine ⟨a, rfl, ?_⟩
    simp [allMoves, upper] at h ⊢
    exact h
  | [a, b] => right; exact ⟨a, b, rfl, h⟩
  | a :: b :: d :: t => exfalso; simp [allMoves, upper] at h

theorem toNat_ofNat_valid {n : Nat} (h : n.isValidChar) : (Char.ofNat n).toNat = n := by
  simp only [Char.ofNat, h, dif_pos]
  rfl

theorem toNat_upper_az {c : Char} (h : 0x61 ≤ c.toNat ∧ c.toNat ≤ 0x7a) : (Char.ofNat (c.toNat - 0x20)).toNat = c.toNat - 0x20 := by
  have hv : (c.toNat - 0x20).isValidChar := by left; omega
  exact toNat_ofNat_valid hv

theorem upperChar_eq_letter {a X : Char} (h : upperChar a = X) (hX : 65 ≤ X.toNat ∧ X.toNat ≤ 90)
    (hI : X ≠ 'I') (hS : X ≠ 'S') : a = X ∨ a = lowerChar X := by
  unfold upperChar at h
  split at h
  · rename_i h1
    right
    have h2 := toNat_upper_az h1
    rw [h] at h2
    apply Char.toNat_inj.1
    rw [lowerChar, if_pos (by omega), toNat_ofNat_valid (by left; omega)]
    omega
  · split at h
    · exact absurd h.symm hI
    · split at h
      · exact absurd h.symm hS
      · exact .inl h

theorem lurd_cases {a : Char} {X : Char} (h : upperChar a = X) (hX : X ∈ "LURD".toList) :
    a = X ∨ a = lowerChar X := by
  have : 65 ≤ X.toNat ∧ X.toNat ≤ 90 ∧ X ≠ 'I' ∧ X ≠ 'S' := by
    have key : ∀ X ∈ "LURD".toList, 65 ≤ X.toNat ∧ X.toNat ≤ 90 ∧ X ≠ 'I' ∧ X ≠ 'S' := by decide
    exact key X hX
  exact upperChar_eq_letter h ⟨this.1, this.2.1⟩ this.2.2.1 this.2.2.2

/-- Captures after the moves. -/
def movCaps (n : EdgeNames) (mv : Option (Str × Option Char)) (c : Caps) : Caps := match mv with
  | none => c
  | some (m, none) => c.put n.mov m
  | some (m, some x) => (c.put n.mov m).put n.mod [x]

theorem allMoves_pairs {x y : Char} (h : [x, y] ∈ allMoves) :
    (x, y) ∈ [('L','D'),('L','U'),('U','L'),('U','R'),('R','U'),('R','D'),('D','L'),('D','R')] := by
  simpa [allMoves] using h

theorem moves_ok {m u : Str} {c : Caps} {k : Str → Caps → Option α} {r : α} (h : upper m ∈ allMoves)
    (hk : k u c = some r) (hl : ∀ x t c, upperChar x ∈ "LURD".toList → k (x :: t) c = none) :
    reMoves.m (m ++ u) c k = some r := by
  rcases mov_mem h with ⟨a, rfl, ha⟩ | ⟨a, b, rfl, hab⟩
  · have hc : upperChar a = 'L' ∨ upperChar a = 'U' ∨ upperChar a = 'R' ∨ upperChar a = 'D' := by simpa using ha
    rcases hc with e | e | e | e <;> rcases lurd_cases e (by decide) with rfl | rfl <;>
      simp [reMoves, Re.alts, lowerChar, hk]
  · have hc := allMoves_pairs hab
    have hkb : ∀ c, k (b :: u) c = none := by
      intro c; apply hl
      simp at hc
      rcases hc with ⟨_, e⟩ | ⟨_, e⟩ | ⟨_, e⟩ | ⟨_, e⟩ | ⟨_, e⟩ | ⟨_, e⟩ | ⟨_, e⟩ | ⟨_, e⟩ <;> rw [e] <;> decide
    simp at hc
    rcases hc with ⟨e1, e2⟩ | ⟨e1, e2⟩ | ⟨e1, e2⟩ | ⟨e1, e2⟩ | ⟨e1, e2⟩ | ⟨e1, e2⟩ | ⟨e1, e2⟩ | ⟨e1, e2⟩ <;>
      rcases lurd_cases e1 (by decide) with rfl | rfl <;> rcases lurd_cases e2 (by decide) with rfl | rfl <;>
      (try simp [lowerChar] at hkb) <;> simp [reMoves, Re.alts, lowerChar, hk, hkb]

theorem movmod_ok {n : EdgeNames} {mv : Option (Str × Option Char)} {u : Str} {c : Caps}
    {k : Str → Caps → Option α} {r : α} (h : MovOk mv) (hu : EdgeEnd u) (hk : k u (movCaps n mv c) = some r) :
    (Re.opt (reMovMod n)).m (movText mv ++ u) c k = some r := by
  match mv with
  | none =>
    have : (reMovMod n).m u c k = none := by
      rcases hu with rfl | ⟨t, rfl⟩ <;> rfl
    rw [movText, List.nil_append, m_opt, this, Option.none_or]
    exact hk
  | some (m, x) =>
    obtain ⟨hm, hx⟩ := h
    rw [m_opt]
    have : (reMovMod n).m (movText (some (m, x)) ++ u) c k = some r := by
      have hl : ∀ y t c, upperChar y ∈ "LURD".toList →
          ((Re.opt (.grp n.mod (.cls (fun c => c == '+' || c == '?')))).m (y :: t) c
            (fun s c => (Re.chr ')').m s c k)) = none := by
        intro y t c hy
        have : y ≠ '+' ∧ y ≠ '?' ∧ y ≠ ')' := by
          refine ⟨?_, ?_, ?_⟩ <;> rintro rfl <;> revert hy <;> decide
        simp [m_grp, this.1, this.2.1, this.2.2]
      have hmov : ∀ w, (Re.opt (.grp n.mod (.cls (fun c => c == '+' || c == '?')))).m w (c.put n.mov m)
            (fun s c => (Re.chr ')').m s c k) = some r →
          (reMovMod n).m ('(' :: (m ++ w)) c k = some r := by
        intro w hw
        simp only [reMovMod, Re.seqs, m_seq, m_chr_cons, beq_self_eq_true, if_true]
        rw [m_grp]
        apply moves_ok hm
        · simp only [take_prefix]; exact hw
        · intro y t c hy; exact hl y t _ hy
      rcases hx with rfl | rfl | rfl
      · have := hmov (')' :: u) (by simp [m_grp]; exact hk)
        simpa [movText] using this
      · have := hmov ('+' :: ')' :: u) (by
          simp [m_grp]; exact hk)
        simpa [movText] using this
      · have := hmov ('?' :: ')' :: u) (by
          simp [m_grp]; exact hk)
        simpa [movText] using this
    rw [this]; rfl

theorem movmod_stops {n : EdgeNames} {k : Str → Caps → Option α} (hk : Stops k) :
    Stops2 (fun s c => (Re.opt (reMovMod n)).m s c k) := by
  intro x t c h1 h2 h3
  have : (reMovMod n).m (x :: t) c k = none := by simp [reMovMod, Re.seqs, h3]
  simp only [m_opt, this, Option.none_or]
  exact hk x t c h1 h2

/-- Captures after an edge. -/
def edgeCaps (n : EdgeNames) (e : EdgeText) (c : Caps) : Caps := movCaps n e.mov (cellCaps n e.cell c)

theorem edge_ok {n : EdgeNames} {dot : Bool} {p : Char → Bool} (hp : p = if dot then isMarginDot else isMargin)
    {e : EdgeText} {u : Str} {c : Caps} {k : Str → Caps → Option α} {r : α} (h : e.Ok dot) (hu : EdgeEnd u)
    (hs : Stops k) (hk : k u (edgeCaps n e c) = some r) : (reEdge n p).m (e.text ++ u) c k = some r := by
  obtain ⟨hcell, hmov⟩ := h
  have hk2 := movmod_ok (n := n) (c := cellCaps n e.cell c) hmov hu hk
  have hhead : ∀ x, (movText e.mov ++ u).head? = some x → isDigitU x = false := by
    intro x hx
    match hm : e.mov with
    | none =>
      rw [hm] at hx
      rcases hu with rfl | ⟨t, rfl⟩
      · simp [movText] at hx
      · simp [movText] at hx; subst hx; decide
    | some (m, none) => rw [hm] at hx; simp [movText] at hx; subst hx; decide
    | some (m, some y) => rw [hm] at hx; simp [movText] at hx; subst hx; decide
  simp only [reEdge, m_seq, m_alt, EdgeText.text]
  match hc : e.cell with
  | .a1 col row =>
    rw [hc] at hcell hk2
    simp only [CellText.text, List.append_assoc]
    rw [a1_ok hp hcell hhead hk2, Option.some_or]
  | .rc R row C col =>
    rw [hc] at hcell hk2
    simp only [CellText.text, List.append_assoc, List.cons_append]
    rw [a1_rc_none hp hcell (movmod_stops hs), Option.none_or]
    exact rc_ok hcell hhead hk2

/-- An edge starts with a letter or a special coordinate. -/
theorem edge_none {n : EdgeNames} {p : Char → Bool} {s : Str} {c : Caps} {k : Str → Caps → Option α}
    (hs : ∀ x, s.head? = some x → isAZi x = false ∧ p x = false) : (reEdge n p).m s c k = none := by
  cases s with
  | nil => rfl
  | cons x t =>
    obtain ⟨h1, h2⟩ := hs x rfl
    have hR : x ≠ 'R' ∧ x ≠ 'r' := by constructor <;> rintro rfl <;> revert h1 <;> decide
    simp [reEdge, reA1, reRC, Re.seqs, m_grp, m_plus, h1, h2, hR.1, hR.2, lowerChar]

end Model
