import Verif.Props.DictFilters
set_option linter.unusedSimpArgs false
/-
C119 the filter `sorted`.
-/
namespace Props
open Py Model Spec Lemmas

/-! ### The order, on keys -/

private def keyLt : CKey → CKey → Except PyErr Bool
  | .num i, .num j => .ok (i < j)
  | .text s, .text t => .ok (strLt s t)
  | _, _ => .error .typeError

private def keysLt : List CKey → List CKey → Except PyErr Bool
  | [], [] => .ok false
  | [], _ :: _ => .ok true
  | _ :: _, [] => .ok false
  | a :: as, b :: bs => if a = b then keysLt as bs else keyLt a b

private inductive IKey
  | cell (k : CKey)
  | row (ks : List CKey)
  deriving DecidableEq

private def ikey : CItem → IKey
  | .cell c => .cell c.key
  | .row cs => .row (cs.map CVal.key)

private def ikeyLt : IKey → IKey → Except PyErr Bool
  | .cell a, .cell b => keyLt a b
  | .row a, .row b => keysLt a b
  | _, _ => .error .typeError

private theorem cell_lt (a b : CVal) : a.lt b = keyLt a.key b.key := by
  unfold CVal.lt keyLt
  cases a.key <;> cases b.key <;> rfl

private theorem row_lt : ∀ a b : List CVal, rowLt a b = keysLt (a.map CVal.key) (b.map CVal.key)
  | [], [] => rfl
  | [], _ :: _ => rfl
  | _ :: _, [] => rfl
  | a :: as, b :: bs => by simp only [rowLt, List.map_cons, keysLt, row_lt as bs, cell_lt]

private theorem item_lt (a b : CItem) : a.lt b = ikeyLt (ikey a) (ikey b) := by
  cases a <;> cases b <;> simp only [CItem.lt, ikey, ikeyLt, cell_lt, row_lt]

private theorem keyLt_trans {a b c : CKey} (h1 : keyLt a b = .ok true) (h2 : keyLt b c = .ok true) : keyLt a c = .ok true := by
  cases a <;> cases b <;> simp [keyLt] at h1 <;> cases c <;> simp [keyLt] at h2 ⊢
  · omega
  · exact strLt_trans h1 h2

private theorem keyLt_asymm {a b : CKey} (h : keyLt a b = .ok true) : keyLt b a = .ok false := by
  cases a <;> cases b <;> simp [keyLt] at h ⊢
  · omega
  · next s t =>
    cases e : strLt t s with
    | false => rfl
    | true => exact absurd (strLt_trans h e) (by simp [strLt_irrefl])

private theorem keyLt_total {a b : CKey} (h : keyLt a b = .ok false) : a = b ∨ keyLt b a = .ok true := by
  cases a <;> cases b <;> simp [keyLt] at h ⊢
  · omega
  · next s t =>
    by_cases e : s = t
    · exact .inl e
    · exact .inr (strLt_total h e)

private theorem keyLt_ne {a b : CKey} (h : keyLt a b = .ok true) : a ≠ b := by
  rintro rfl
  rw [keyLt_asymm h] at h; simp at h

private theorem keysLt_trans : ∀ {a b c : List CKey}, keysLt a b = .ok true → keysLt b c = .ok true → keysLt a c = .ok true
  | [], [], _, h, _ => by simp [keysLt] at h
  | _ :: _, [], _, h, _ => by simp [keysLt] at h
  | _, _ :: _, [], _, h => by simp [keysLt] at h
  | [], _ :: _, _ :: _, _, _ => rfl
  | a :: as, b :: bs, c :: cs, h1, h2 => by
    rw [keysLt] at h1 h2 ⊢
    by_cases e1 : a = b
    · subst e1
      simp only [if_true] at h1
      by_cases e2 : a = c
      · subst e2
        simp only [if_true] at h2 ⊢
        exact keysLt_trans h1 h2
      · simp only [e2, if_false] at h2 ⊢
        exact h2
    · simp only [e1, if_false] at h1
      by_cases e2 : b = c
      · subst e2
        simp only [e1, if_false]
        exact h1
      · simp only [e2, if_false] at h2
        have h3 := keyLt_trans h1 h2
        simp only [keyLt_ne h3, if_false]
        exact h3

private theorem keysLt_asymm : ∀ {a b : List CKey}, keysLt a b = .ok true → keysLt b a = .ok false
  | [], [], h => by simp [keysLt] at h
  | _ :: _, [], h => by simp [keysLt] at h
  | [], _ :: _, _ => rfl
  | a :: as, b :: bs, h => by
    rw [keysLt] at h ⊢
    by_cases e : a = b
    · subst e
      simp only [if_true] at h ⊢
      exact keysLt_asymm h
    · simp only [e, Ne.symm e, if_false] at h ⊢
      exact keyLt_asymm h

private theorem keysLt_total : ∀ {a b : List CKey}, keysLt a b = .ok false → a = b ∨ keysLt b a = .ok true
  | [], [], _ => .inl rfl
  | _ :: _, [], _ => .inr rfl
  | [], _ :: _, h => by simp [keysLt] at h
  | a :: as, b :: bs, h => by
    rw [keysLt] at h
    rw [keysLt]
    by_cases e : a = b
    · subst e
      simp only [if_true] at h ⊢
      rcases keysLt_total h with h | h
      · exact .inl (by rw [h])
      · exact .inr h
    · simp only [e, Ne.symm e, if_false] at h ⊢
      rcases keyLt_total h with h | h
      · exact absurd h e
      · exact .inr h

private theorem ikeyLt_trans {a b c : IKey} (h1 : ikeyLt a b = .ok true) (h2 : ikeyLt b c = .ok true) : ikeyLt a c = .ok true := by
  cases a <;> cases b <;> simp [ikeyLt] at h1 <;> cases c <;> simp [ikeyLt] at h2 ⊢
  · exact keyLt_trans h1 h2
  · exact keysLt_trans h1 h2

private theorem ikeyLt_asymm {a b : IKey} (h : ikeyLt a b = .ok true) : ikeyLt b a = .ok false := by
  cases a <;> cases b <;> simp [ikeyLt] at h ⊢
  · exact keyLt_asymm h
  · exact keysLt_asymm h

private theorem ikeyLt_total {a b : IKey} (h : ikeyLt a b = .ok false) : a = b ∨ ikeyLt b a = .ok true := by
  cases a <;> cases b <;> simp [ikeyLt] at h ⊢
  · exact keyLt_total h
  · exact keysLt_total h

/-- Between items that can be compared, not being before is transitive. -/
private theorem not_before {a b c : CItem} (h1 : b.lt a = .ok false) (h2 : c.lt b = .ok false) (h3 : ∃ r, c.lt a = .ok r) :
    c.lt a = .ok false := by
  obtain ⟨r, h3⟩ := h3
  cases r with
  | false => exact h3
  | true =>
    exfalso
    rw [item_lt] at h1 h2 h3
    have hac := ikeyLt_asymm h3
    rcases ikeyLt_total h1 with e1 | e1
    · rw [e1] at h2; rw [h3] at h2; simp at h2
    · rcases ikeyLt_total h2 with e2 | e2
      · rw [e2] at h3; rw [h1] at h3; simp at h3
      · rw [ikeyLt_trans e1 e2] at hac; simp at hac

/-! ### Sorting -/

private def Sorted (l : List CItem) : Prop := l.Pairwise (fun a b => b.lt a = .ok false)

private theorem insert_perm {x : CItem} : ∀ {l r : List CItem}, insertItem x l = .ok r → r.Perm (x :: l) := by
  intro l
  induction l with
  | nil => intro r h; simp [insertItem] at h; rw [← h]
  | cons y t ih =>
    intro r h
    rw [insertItem] at h
    cases hl : y.lt x with
    | error e => simp [hl] at h
    | ok b =>
      cases b with
      | false => simp [hl] at h; rw [← h]
      | true =>
        simp only [hl] at h
        cases hi : insertItem x t with
        | error e => simp [hi] at h
        | ok s =>
          simp only [hi, Except.ok.injEq] at h
          rw [← h]
          exact ((ih hi).cons y).trans (.swap x y t)

private theorem sort_perm : ∀ {l r : List CItem}, sortItems l = .ok r → r.Perm l := by
  intro l
  induction l with
  | nil => intro r h; simp [sortItems] at h; rw [← h]
  | cons x l ih =>
    intro r h
    rw [sortItems] at h
    cases hs : sortItems l with
    | error e => simp [hs] at h
    | ok s =>
      simp only [hs] at h
      exact (insert_perm h).trans ((ih hs).cons x)

private theorem insert_ok {x : CItem} : ∀ {l : List CItem}, (∀ y ∈ l, (∃ r, y.lt x = .ok r) ∧ ∃ r, x.lt y = .ok r) → Sorted l →
    ∃ r, insertItem x l = .ok r ∧ Sorted r := by
  intro l
  induction l with
  | nil => intro _ _; exact ⟨[x], rfl, List.pairwise_singleton _ _⟩
  | cons y t ih =>
    intro hc hs
    obtain ⟨h1, h2⟩ := List.pairwise_cons.1 hs
    obtain ⟨⟨b, hb⟩, hb'⟩ := hc y (by simp)
    rw [insertItem]
    cases b with
    | false =>
      refine ⟨x :: y :: t, by simp [hb], List.pairwise_cons.2 ⟨?_, hs⟩⟩
      intro z hz
      rcases List.mem_cons.1 hz with rfl | hz
      · exact hb
      · exact not_before hb (h1 z hz) (hc z (by simp [hz])).1
    | true =>
      obtain ⟨r, e, hr⟩ := ih (fun z hz => hc z (by simp [hz])) h2
      refine ⟨y :: r, by simp [hb, e], List.pairwise_cons.2 ⟨?_, hr⟩⟩
      intro z hz
      rcases List.mem_cons.1 ((insert_perm e).mem_iff.1 hz) with rfl | hz
      · rw [item_lt] at hb ⊢; exact ikeyLt_asymm hb
      · exact h1 z hz

private def Comparable (a b : CItem) : Prop := (∃ r, a.lt b = .ok r) ∧ ∃ r, b.lt a = .ok r

private theorem sort_ok : ∀ {l : List CItem}, l.Pairwise Comparable → ∃ r, sortItems l = .ok r ∧ Sorted r := by
  intro l
  induction l with
  | nil => intro _; exact ⟨[], rfl, List.Pairwise.nil⟩
  | cons x l ih =>
    intro h
    obtain ⟨h1, h2⟩ := List.pairwise_cons.1 h
    obtain ⟨s, e, hs⟩ := ih h2
    rw [sortItems, e]
    exact insert_ok (fun y hy => (h1 y ((sort_perm e).mem_iff.1 hy)).symm) hs

private theorem insert_filter {p : CItem → Bool} (hp : ∀ a b, p a = true → p b = true → a.lt b ≠ .ok true) {x : CItem} :
    ∀ {l r : List CItem}, insertItem x l = .ok r → r.filter p = (x :: l).filter p := by
  intro l
  induction l with
  | nil => intro r h; simp [insertItem] at h; rw [← h]
  | cons y t ih =>
    intro r h
    rw [insertItem] at h
    cases hl : y.lt x with
    | error e => simp [hl] at h
    | ok b =>
      cases b with
      | false => simp [hl] at h; rw [← h]
      | true =>
        simp only [hl] at h
        cases hi : insertItem x t with
        | error e => simp [hi] at h
        | ok s =>
          simp only [hi, Except.ok.injEq] at h
          rw [← h, List.filter_cons, ih hi]
          cases hx : p x with
          | false => simp only [List.filter_cons, hx, Bool.false_eq_true, if_false]
          | true =>
            cases hy : p y with
            | true => exact absurd hl (hp y x hy hx)
            | false => simp only [List.filter_cons, hx, hy, Bool.false_eq_true, if_false, if_true]

private theorem sort_filter {p : CItem → Bool} (hp : ∀ a b, p a = true → p b = true → a.lt b ≠ .ok true) :
    ∀ {l r : List CItem}, sortItems l = .ok r → r.filter p = l.filter p := by
  intro l
  induction l with
  | nil => intro r h; simp [sortItems] at h; rw [← h]
  | cons x l ih =>
    intro r h
    rw [sortItems] at h
    cases hs : sortItems l with
    | error e => simp [hs] at h
    | ok s =>
      simp only [hs] at h
      rw [insert_filter hp h, List.filter_cons, List.filter_cons, ih hs]

/-! ### The order, as specified -/

private theorem key_num (c : CVal) (i : Int) : c.key = .num i ↔ numberOf c = some i := by
  cases c with
  | bool b => cases b <;> simp [CVal.key, numberOf]
  | _ => simp [CVal.key, numberOf]

private theorem key_text (c : CVal) (s : Str) : c.key = .text s ↔ c = .text s := by
  cases c <;> simp [CVal.key]

private theorem cell_before (a b : CVal) : a.lt b = .ok true ↔ CellBefore a b := by
  constructor
  · intro h
    rw [cell_lt] at h
    cases ha : a.key <;> cases hb : b.key <;> simp [ha, hb, keyLt] at h
    · exact .numbers _ _ _ _ ((key_num _ _).1 ha) ((key_num _ _).1 hb) h
    · rw [(key_text _ _).1 ha, (key_text _ _).1 hb]
      exact .texts _ _ (strLt_iff.1 h)
  · intro h
    rw [cell_lt]
    cases h with
    | numbers _ _ i j h1 h2 h3 => rw [(key_num _ _).2 h1, (key_num _ _).2 h2]; simp [keyLt, h3]
    | texts s t h => simp [CVal.key, keyLt, strLt_iff.2 h]

private theorem cell_ordered (a b : CVal) : (∃ r, a.lt b = .ok r) ↔ CellsOrdered a b := by
  rw [cell_lt]
  constructor
  · rintro ⟨r, h⟩
    cases ha : a.key <;> cases hb : b.key <;> simp [ha, hb, keyLt] at h
    · exact .inl ⟨_, _, (key_num _ _).1 ha, (key_num _ _).1 hb⟩
    · exact .inr ⟨_, _, (key_text _ _).1 ha, (key_text _ _).1 hb⟩
  · rintro (⟨i, j, h1, h2⟩ | ⟨s, t, rfl, rfl⟩)
    · rw [(key_num _ _).2 h1, (key_num _ _).2 h2]; exact ⟨_, rfl⟩
    · exact ⟨_, rfl⟩

private theorem same_row : ∀ p q : List CVal, SameRow p q ↔ p.map CVal.key = q.map CVal.key
  | [], [] => by simp [SameRow]
  | [], _ :: _ => by simp [SameRow]
  | _ :: _, [] => by simp [SameRow]
  | a :: p, b :: q => by simp [SameRow, same_row p q, key_same]

private theorem same_row_refl (p : List CVal) : SameRow p p := (same_row p p).2 rfl

/-- Rows, by the first cells that differ. -/
private theorem rows_cases : ∀ x y : List CVal,
    SameRow x y ∨ (∃ p q b t, SameRow p q ∧ x = p ∧ y = q ++ b :: t) ∨ (∃ p q a s, SameRow p q ∧ x = p ++ a :: s ∧ y = q) ∨
    ∃ p q a b s t, SameRow p q ∧ ¬ SameCell a b ∧ x = p ++ a :: s ∧ y = q ++ b :: t
  | [], [] => .inl trivial
  | [], b :: t => .inr (.inl ⟨[], [], b, t, trivial, rfl, rfl⟩)
  | a :: s, [] => .inr (.inr (.inl ⟨[], [], a, s, trivial, rfl, rfl⟩))
  | a :: s, b :: t => by
    by_cases h : SameCell a b
    · rcases rows_cases s t with h1 | ⟨p, q, c, u, h1, rfl, rfl⟩ | ⟨p, q, c, u, h1, rfl, rfl⟩ | ⟨p, q, c, d, u, v, h1, h2, rfl, rfl⟩
      · exact .inl ⟨h, h1⟩
      · exact .inr (.inl ⟨a :: s, b :: q, c, u, ⟨h, h1⟩, rfl, rfl⟩)
      · exact .inr (.inr (.inl ⟨a :: p, b :: t, c, u, ⟨h, h1⟩, rfl, rfl⟩))
      · exact .inr (.inr (.inr ⟨a :: p, b :: q, c, d, u, v, ⟨h, h1⟩, h2, rfl, rfl⟩))
    · exact .inr (.inr (.inr ⟨[], [], a, b, s, t, trivial, h, rfl, rfl⟩))

private theorem rowLt_same : ∀ {p q : List CVal}, SameRow p q → ∀ s t, rowLt (p ++ s) (q ++ t) = rowLt s t
  | [], [], _, _, _ => rfl
  | [], _ :: _, h, _, _ => by simp [SameRow] at h
  | _ :: _, [], h, _, _ => by simp [SameRow] at h
  | a :: p, b :: q, h, s, t => by
    rw [List.cons_append, List.cons_append, rowLt, if_pos ((key_same _ _).2 h.1), rowLt_same h.2]

private theorem item_before (a b : CItem) : a.lt b = .ok true ↔ ItemBefore a b := by
  constructor
  · intro h
    cases a with
    | cell a => cases b with
      | cell b => exact .cells _ _ ((cell_before _ _).1 h)
      | row b => simp [CItem.lt] at h
    | row x => cases b with
      | cell b => simp [CItem.lt] at h
      | row y =>
        rw [CItem.lt] at h
        rcases rows_cases x y with h1 | ⟨p, q, b, t, h1, rfl, rfl⟩ | ⟨p, q, a, s, h1, rfl, rfl⟩ | ⟨p, q, a, b, s, t, h1, h2, rfl, rfl⟩
        · have := rowLt_same h1 [] []
          rw [List.append_nil, List.append_nil, h] at this; simp [rowLt] at this
        · exact .shorter _ _ _ _ h1
        · have := rowLt_same h1 (a :: s) []
          rw [List.append_nil, h] at this; simp [rowLt] at this
        · rw [rowLt_same h1, rowLt, if_neg (fun e => h2 ((key_same _ _).1 e))] at h
          exact .rows _ _ _ _ _ _ h1 ((cell_before _ _).1 h)
  · intro h
    cases h with
    | cells a b h => exact (cell_before _ _).2 h
    | rows p q a b s t h1 h2 =>
      rw [CItem.lt, rowLt_same h1, rowLt]
      have := (cell_before _ _).2 h2
      rw [if_neg, this]
      rw [cell_lt] at this
      exact keyLt_ne this
    | shorter p q b t h1 =>
      have := rowLt_same h1 [] (b :: t)
      rw [List.append_nil] at this
      rw [CItem.lt, this]; rfl

private theorem item_ordered (a b : CItem) : (∃ r, a.lt b = .ok r) ↔ ItemsOrdered a b := by
  constructor
  · rintro ⟨r, h⟩
    cases a with
    | cell a => cases b with
      | cell b => exact .cells _ _ ((cell_ordered _ _).1 ⟨r, h⟩)
      | row b => simp [CItem.lt] at h
    | row x => cases b with
      | cell b => simp [CItem.lt] at h
      | row y =>
        rw [CItem.lt] at h
        rcases rows_cases x y with h1 | ⟨p, q, b, t, h1, rfl, rfl⟩ | ⟨p, q, a, s, h1, rfl, rfl⟩ | ⟨p, q, a, b, s, t, h1, h2, rfl, rfl⟩
        · have := ItemsOrdered.begins x y [] h1
          rwa [List.append_nil] at this
        · exact .begins _ _ _ h1
        · exact .begun _ _ _ h1
        · rw [rowLt_same h1, rowLt, if_neg (fun e => h2 ((key_same _ _).1 e))] at h
          exact .rows _ _ _ _ _ _ h1 h2 ((cell_ordered _ _).1 ⟨r, h⟩)
  · intro h
    cases h with
    | cells a b h => exact (cell_ordered _ _).2 h
    | rows p q a b s t h1 h2 h3 =>
      rw [CItem.lt, rowLt_same h1, rowLt, if_neg (fun e => h2 ((key_same _ _).1 e))]
      exact (cell_ordered _ _).2 h3
    | begins p q t h1 =>
      have := rowLt_same h1 [] t
      rw [List.append_nil] at this
      rw [CItem.lt, this]
      cases t <;> exact ⟨_, rfl⟩
    | begun p q s h1 =>
      have := rowLt_same h1 s []
      rw [List.append_nil] at this
      rw [CItem.lt, this]
      cases s <;> exact ⟨_, rfl⟩

private theorem same_not_before {a b : CItem} (h : SameItem a b) : a.lt b ≠ .ok true := by
  intro e
  rw [item_lt] at e
  have : ikey a = ikey b := by
    cases h with
    | cells a b h => simp only [ikey, (key_same _ _).2 h]
    | rows p q h => simp only [ikey, (same_row _ _).1 h]
  rw [this] at e
  have := ikeyLt_asymm e
  rw [e] at this; simp at this

private theorem comparable {a b : CItem} (h : ItemsOrdered a b) : Comparable a b := by
  obtain ⟨r, h⟩ := (item_ordered a b).2 h
  refine ⟨⟨r, h⟩, ?_⟩
  rw [item_lt] at h ⊢
  cases r with
  | true => exact ⟨_, ikeyLt_asymm h⟩
  | false =>
    rcases ikeyLt_total h with e | e
    · rw [e] at h ⊢; exact ⟨_, h⟩
    · exact ⟨_, e⟩

private theorem Comparable.symm {a b : CItem} (h : Comparable a b) : Comparable b a := ⟨h.2, h.1⟩

/-- **C119** If all items can be put in order, then the filter `sorted` gives the same items, none of them after one that it is before;
with `reverse`, none before one that it is before. Equal items stay in the order in which they are. -/
theorem C119_sorted (xs : List CItem) (h : xs.Pairwise ItemsOrdered) (reverse : Bool) :
    ∃ ys, sortedFilter 0 reverse (.items xs) = .ok ys ∧ ys.Perm xs ∧
      (ys.Pairwise fun a b => if reverse then ¬ ItemBefore a b else ¬ ItemBefore b a) ∧
      ∀ p : CItem → Bool, (∀ a b, p a = true → p b = true → SameItem a b) → ys.filter p = xs.filter p := by
  have hc : xs.Pairwise Comparable := h.imp comparable
  unfold sortedFilter sortedFilter.go
  cases reverse with
  | false =>
    obtain ⟨r, e, hs⟩ := sort_ok hc
    refine ⟨r, by simp [e], sort_perm e, ?_, ?_⟩
    · refine hs.imp ?_
      intro a b hab
      simp only [Bool.false_eq_true, if_false]
      intro hb
      rw [← item_before, hab] at hb; simp at hb
    · intro p hp
      exact sort_filter (fun a b ha hb => same_not_before (hp a b ha hb)) e
  | true =>
    obtain ⟨r, e, hs⟩ := sort_ok (List.pairwise_reverse.2 (hc.imp Comparable.symm))
    refine ⟨r.reverse, by simp [e], (List.reverse_perm r).trans ((sort_perm e).trans (List.reverse_perm xs)), ?_, ?_⟩
    · refine List.pairwise_reverse.2 (hs.imp ?_)
      intro a b hab
      simp only [if_true]
      intro hb
      rw [← item_before, hab] at hb; simp at hb
    · intro p hp
      rw [List.filter_reverse, sort_filter (fun a b ha hb => same_not_before (hp a b ha hb)) e, List.filter_reverse, List.reverse_reverse]

/-- **C119** Whatever the items, none is lost or added if the filter gives anything. -/
theorem C119_kept (nargs : Nat) (reverse : Bool) (xs ys : List CItem) (h : sortedFilter nargs reverse (.items xs) = .ok ys) :
    ys.Perm xs := by
  unfold sortedFilter at h
  split at h
  · unfold sortedFilter.go at h
    cases reverse with
    | false => exact sort_perm (by simpa using h)
    | true =>
      simp only [if_true] at h
      cases e : sortItems xs.reverse with
      | error _ => simp [e] at h
      | ok r =>
        simp only [e, Except.ok.injEq] at h
        rw [← h]
        exact (List.reverse_perm r).trans ((sort_perm e).trans (List.reverse_perm xs))
  · simp at h

private theorem lt_error {a b : CItem} {e : PyErr} (h : a.lt b = .error e) : e = .typeError := by
  rw [item_lt] at h
  have kl : ∀ {a b : CKey} {e : PyErr}, keyLt a b = .error e → e = .typeError := by
    intro a b e h
    cases a <;> cases b <;> simp [keyLt] at h <;> exact h.symm
  have ks : ∀ {a b : List CKey} {e : PyErr}, keysLt a b = .error e → e = .typeError := by
    intro a
    induction a with
    | nil => intro b e h; cases b <;> simp [keysLt] at h
    | cons x a ih =>
      intro b e h
      cases b with
      | nil => simp [keysLt] at h
      | cons y b =>
        rw [keysLt] at h
        split at h
        · exact ih h
        · exact kl h
  cases ha : ikey a <;> cases hb : ikey b <;> simp only [ha, hb, ikeyLt] at h
  · exact kl h
  · cases h; rfl
  · cases h; rfl
  · exact ks h

private theorem insert_error {x : CItem} : ∀ {l : List CItem} {e : PyErr}, insertItem x l = .error e → e = .typeError := by
  intro l
  induction l with
  | nil => intro e h; simp [insertItem] at h
  | cons y t ih =>
    intro e h
    rw [insertItem] at h
    cases hl : y.lt x with
    | error e' => simp only [hl] at h; cases h; exact lt_error hl
    | ok b =>
      cases b with
      | false => simp [hl] at h
      | true =>
        simp only [hl] at h
        cases hi : insertItem x t with
        | error e' => simp only [hi] at h; cases h; exact ih hi
        | ok s => simp [hi] at h

private theorem sort_error : ∀ {l : List CItem} {e : PyErr}, sortItems l = .error e → e = .typeError := by
  intro l
  induction l with
  | nil => intro e h; simp [sortItems] at h
  | cons x l ih =>
    intro e h
    rw [sortItems] at h
    cases hs : sortItems l with
    | error e' => simp only [hs] at h; cases h; exact ih hs
    | ok s => simp only [hs] at h; exact insert_error h

private theorem not_comparable {a b : CItem} (h : ¬ ItemsOrdered a b) : a.lt b = .error .typeError ∧ b.lt a = .error .typeError := by
  have h1 : ∀ r, a.lt b ≠ .ok r := fun r e => h ((item_ordered a b).1 ⟨r, e⟩)
  have h2 : ∀ r, b.lt a ≠ .ok r := fun r e =>
    h ((item_ordered a b).1 (comparable ((item_ordered b a).1 ⟨r, e⟩)).2)
  constructor
  · cases e : a.lt b with
    | ok r => exact absurd e (h1 r)
    | error e' => rw [lt_error e]
  · cases e : b.lt a with
    | ok r => exact absurd e (h2 r)
    | error e' => rw [lt_error e]

private theorem sort_refused (x : CItem) : ∀ (before after : List CItem), before ++ after ≠ [] →
    (∀ y ∈ before ++ after, ¬ ItemsOrdered x y) → sortItems (before ++ x :: after) = .error .typeError := by
  intro before
  induction before with
  | nil =>
    intro after hne hy
    rw [List.nil_append, sortItems]
    cases hs : sortItems after with
    | error e => simp only; rw [sort_error hs]
    | ok s =>
      simp only
      have hp := sort_perm hs
      cases s with
      | nil => exact absurd hp.symm.eq_nil hne
      | cons y s =>
        rw [insertItem, (not_comparable (hy y (hp.mem_iff.1 (by simp)))).2]
  | cons z before ih =>
    intro after hne hy
    rw [List.cons_append, sortItems]
    by_cases hb : before ++ after = []
    · obtain ⟨rfl, rfl⟩ := List.append_eq_nil_iff.1 hb
      have hz := (not_comparable (hy z (by simp))).1
      simp [sortItems, insertItem, hz]
    · rw [ih after hb (fun y h => hy y (by simp at h ⊢; right; exact h))]

/-- **C119** An item that cannot be put in order with any of the other items is refused. -/
theorem C119_refused (x : CItem) (before after : List CItem) (hne : before ++ after ≠ [])
    (h : ∀ y ∈ before ++ after, ¬ ItemsOrdered x y) (reverse : Bool) :
    sortedFilter 0 reverse (.items (before ++ x :: after)) = .error .typeError := by
  unfold sortedFilter sortedFilter.go
  cases reverse with
  | false => simpa using sort_refused x before after hne h
  | true =>
    have := sort_refused x after.reverse before.reverse (by simpa [and_comm] using hne) (by
      intro y hy
      exact h y (by simp at hy ⊢; exact hy.symm))
    simp only [List.reverse_append, List.reverse_cons, List.append_assoc, List.singleton_append, List.nil_append, if_true, this]

/-- Numbers and truth values; rows that differ in their second cells, the first one also with a cell that could not be compared. -/
example : sortedFilter 0 false (.items [.cell (.int 2), .cell (.bool true), .cell (.int 1), .cell (.int (-3))]) =
      .ok [.cell (.int (-3)), .cell (.bool true), .cell (.int 1), .cell (.int 2)] ∧
    sortedFilter 0 true (.items [.cell (.int 2), .cell (.bool true), .cell (.int 1), .cell (.int (-3))]) =
      .ok [.cell (.int 2), .cell (.bool true), .cell (.int 1), .cell (.int (-3))] ∧
    sortedFilter 0 false (.items [.row [.int 1, .text "b".toList, .null], .row [.int 1, .text "a".toList], .row [.int 0, .null]]) =
      .ok [.row [.int 0, .null], .row [.int 1, .text "a".toList], .row [.int 1, .text "b".toList, .null]] ∧
    sortedFilter 0 false (.items [.cell (.int 2), .cell .null]) = .error .typeError ∧
    sortedFilter 0 false (.scalar (.int 2)) = .error .typeError := ⟨rfl, rfl, rfl, rfl, rfl⟩

/-- The items of the first example can be put in order, and nothing can be with a cell that is empty. -/
example : [CItem.cell (.int 2), .cell (.bool true), .cell (.int 1)].Pairwise ItemsOrdered ∧
    (∀ y, ¬ ItemsOrdered (.cell .null) y) := by
  refine ⟨?_, ?_⟩
  · have h : ∀ a b i j, numberOf a = some i → numberOf b = some j → ItemsOrdered (.cell a) (.cell b) :=
      fun a b i j h1 h2 => .cells _ _ (.inl ⟨i, j, h1, h2⟩)
    simp only [List.pairwise_cons, List.mem_cons, List.not_mem_nil, or_false, forall_eq_or_imp, forall_eq]
    exact ⟨⟨h _ _ 2 1 rfl rfl, h _ _ 2 1 rfl rfl⟩, h _ _ 1 1 rfl rfl, by simp, List.Pairwise.nil⟩
  · intro y h
    cases h with
    | cells _ b h => rcases h with ⟨i, j, h, _⟩ | ⟨s, t, h, _⟩ <;> simp [numberOf] at h

end Props
