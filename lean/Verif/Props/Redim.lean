import Verif.Lemmas.Redim
set_option linter.unusedSimpArgs false
/-
C54 redimensioning.
-/
namespace Props
open Py Model Spec Lemmas

private theorem asarray_ok {d : Doc} {a : NdArr} (h : asarray d = .ok a) :
    Shape (shapeOf d) d ∧ a = ⟨shapeOf d, promote (leaves d)⟩ := by
  unfold asarray at h
  split at h
  · rename_i hs
    simp only [Except.ok.injEq] at h
    exact ⟨(hasShape_iff _ _).1 hs, h.symm⟩
  · simp at h

private theorem squeeze_ok {a b : NdArr} {i : Nat} (h : a.squeeze i = .ok b) (hv : a.data.length = volume a.shape) :
    b.data = a.data ∧ b.data.length = volume b.shape ∧ b.shape.length + 1 = a.shape.length := by
  unfold NdArr.squeeze at h
  split at h
  · rename_i hi
    simp only [Except.ok.injEq] at h
    subst h
    have key : ∀ (sh : List Nat) (i : Nat), sh[i]? = some 1 → volume (sh.eraseIdx i) = volume sh := by
      intro sh
      induction sh with
      | nil => intro i h; simp at h
      | cons n sh ih =>
        intro i h
        cases i with
        | zero => simp at h; simp [volume, h]
        | succ i => simp at h; simp [volume, ih i h]
    have hlt : i < a.shape.length := by
      rcases Nat.lt_or_ge i a.shape.length with h | h
      · exact h
      · rw [List.getElem?_eq_none h] at hi; simp at hi
    refine ⟨rfl, by rw [hv, key _ _ hi], ?_⟩
    simp only [List.length_eraseIdx, if_pos hlt]; omega
  · simp at h

private theorem squeezes_ok (is : List Nat) : ∀ {a b : NdArr}, a.squeezes is = .ok b → a.data.length = volume a.shape →
    b.data = a.data ∧ b.data.length = volume b.shape ∧ b.shape.length + is.length = a.shape.length := by
  induction is with
  | nil => intro a b h hv; simp only [NdArr.squeezes, Except.ok.injEq] at h; subst h; exact ⟨rfl, hv, rfl⟩
  | cons i is ih =>
    intro a b h hv
    unfold NdArr.squeezes at h
    split at h
    · simp at h
    · rename_i a' ha
      obtain ⟨h1, h2, h3⟩ := squeeze_ok ha hv
      obtain ⟨h4, h5, h6⟩ := ih h h2
      exact ⟨by rw [h4, h1], h5, by simp; omega⟩

private theorem volume_filter (sh : List Nat) : volume (sh.filter (fun d => d != 1)) = volume sh := by
  induction sh with
  | nil => rfl
  | cons n sh ih =>
    by_cases h : n = 1
    · subst h; simp [volume, ih]
    · simp [h, volume, ih]

private theorem volume_replicate (k : Nat) (sh : List Nat) : volume (List.replicate k 1 ++ sh) = volume sh := by
  induction k with
  | zero => simp
  | succ k ih => simp [List.replicate_succ, volume, ih]

private theorem toDim_ok {a b : NdArr} {k : Int} (h : toDim a k = .ok b) (hv : a.data.length = volume a.shape) :
    b.data = a.data ∧ b.data.length = volume b.shape := by
  unfold toDim at h
  split at h
  · simp only [Except.ok.injEq] at h
    subst h
    exact ⟨rfl, by simp [updim, volume_replicate, hv]⟩
  · split at h
    · unfold downdim at h
      simp only at h
      split at h
      · simp only [Except.ok.injEq] at h; subst h
        exact ⟨rfl, by simp [volume]⟩
      · split at h
        · simp only [Except.ok.injEq] at h; subst h
          exact ⟨rfl, by simp only [volume_filter]; exact hv⟩
        · obtain ⟨h1, h2, _⟩ := squeezes_ok _ h hv
          exact ⟨h1, h2⟩
    · simp only [Except.ok.injEq] at h; subst h; exact ⟨rfl, hv⟩

/-- C54. Values of one type, or with an object such as `None` among them, are never lost, added or
reordered by a change of dimensions. -/
theorem C54_values_partial (d d' : Doc) (k : Int) (hu : Uniform (cells d)) (h : redim d (.int k) = .ok d') :
    cells d' = cells d := by
  rw [cells_eq] at hu
  unfold redim at h
  split at h
  · simp at h
  · rename_i a ha
    obtain ⟨hs, rfl⟩ := asarray_ok ha
    rw [promote_uniform hu] at h
    simp only at h
    split at h
    · simp at h
    · rename_i b hb
      obtain ⟨hl, hnl⟩ := shape_leaves hs
      obtain ⟨h1, h2⟩ := toDim_ok hb hl
      simp only [Except.ok.injEq] at h
      subst h
      rw [cells_eq, cells_eq, (tolist_shape b.shape b.data h2 (by rw [h1]; exact hnl)).2, h1]

example : redim (.list [.list [.int 1, .int 2], .list [.int 3, .int 4]]) (.int 1) =
    .ok (.list [.int 1, .int 2, .int 3, .int 4]) := rfl
example : redim (.list [.list [.int 1, .null], .list [.str ['a'], .int 4]]) (.int 3) =
    .ok (.list [.list [.list [.int 1, .null], .list [.str ['a'], .int 4]]]) := rfl
example : Uniform (cells (.list [.list [.int 1, .null], .list [.str ['a'], .int 4]])) :=
  .inr (.inr (.inr ⟨.null, by simp [cells, cellsOf], .inl rfl⟩))

private theorem promote_leaf {l : List Doc} (hnl : ∀ x ∈ l, isList x = false) : ∀ x ∈ promote l, isList x = false := by
  intro x hx
  unfold promote at hx
  have hps : ∀ y, isList y = false → isList (promoteStr y) = false := by
    intro y hy; cases y <;> first | rfl | (rename_i b; cases b <;> rfl) | simpa [promoteStr] using hy
  have hpi : ∀ y, isList y = false → isList (promoteInt y) = false := by
    intro y hy; cases y <;> first | rfl | (rename_i b; cases b <;> rfl) | simpa [promoteInt] using hy
  split at hx
  · exact hnl x hx
  · split at hx
    · obtain ⟨y, hy, rfl⟩ := List.mem_map.1 hx; exact hps y (hnl y hy)
    · split at hx
      · obtain ⟨y, hy, rfl⟩ := List.mem_map.1 hx; exact hpi y (hnl y hy)
      · exact hnl x hx

private theorem promote_length (l : List Doc) : (promote l).length = l.length := by
  unfold promote
  split
  · rfl
  · split
    · simp
    · split <;> simp

private theorem cells_redim {d d' : Doc} {k : Int} (h : redim d (.int k) = .ok d') : cells d' = promote (cells d) := by
  rw [cells_eq, cells_eq]
  unfold redim at h
  split at h
  · simp at h
  · rename_i a ha
    obtain ⟨hs, rfl⟩ := asarray_ok ha
    simp only at h
    split at h
    · simp at h
    · rename_i b hb
      obtain ⟨hl, hnl⟩ := shape_leaves hs
      obtain ⟨h1, h2⟩ := toDim_ok hb (by rw [promote_length]; exact hl)
      simp only [Except.ok.injEq] at h
      subst h
      rw [(tolist_shape b.shape b.data h2 (by rw [h1]; exact promote_leaf hnl)).2, h1]

/-- C54. Exactly which values are kept: those of one type, or with an object such as `None` among them. -/
theorem C54_exact (d d' : Doc) (k : Int) (h : redim d (.int k) = .ok d') : cells d' = cells d ↔ Uniform (cells d) := by
  refine ⟨?_, fun hu => C54_values_partial d d' k hu h⟩
  rw [cells_redim h]
  have hnl : ∀ x ∈ cells d, isList x = false := by
    rw [cells_eq]
    unfold redim at h
    split at h
    · simp at h
    · rename_i a ha
      exact (shape_leaves (asarray_ok ha).1).2
  generalize cells d = l at hnl
  have fixed : ∀ (f : Doc → Doc), l.map f = l → ∀ x ∈ l, f x = x := by
    intro f hf x hx
    obtain ⟨i, hi⟩ := List.getElem?_of_mem hx
    have := congrArg (·[i]?) hf
    simpa [hi] using this
  intro e
  unfold promote at e
  split at e
  · rename_i hs
    obtain ⟨x, hx, hy⟩ := List.any_eq_true.1 hs
    refine .inr (.inr (.inr ⟨x, hx, ?_⟩))
    cases x <;> first | cases hy; done | simp
  · rename_i hobj
    have hobj' : ∀ x ∈ l, x ≠ .null ∧ (∀ t, x ≠ .atom t) ∧ ∀ kvs, x ≠ .dict kvs := by
      intro x hx
      refine ⟨?_, ?_, ?_⟩ <;> intros <;> rintro rfl <;> exact hobj (List.any_eq_true.2 ⟨_, hx, rfl⟩)
    have kinds : ∀ x ∈ l, (∃ s, x = .str s) ∨ (∃ i, x = .int i) ∨ ∃ b, x = .bool b := by
      intro x hx
      obtain ⟨h1, h2, h3⟩ := hobj' x hx
      have h4 := hnl x hx
      cases x with
      | null => exact absurd rfl h1
      | atom t => exact absurd rfl (h2 t)
      | dict kvs => exact absurd rfl (h3 kvs)
      | list xs => cases h4
      | str s => exact .inl ⟨s, rfl⟩
      | int i => exact .inr (.inl ⟨i, rfl⟩)
      | bool b => exact .inr (.inr ⟨b, rfl⟩)
    split at e
    · refine .inl ?_
      intro x hx
      have hf := fixed promoteStr e x hx
      rcases kinds x hx with hk | ⟨i, rfl⟩ | ⟨b, rfl⟩
      · exact hk
      · cases hf
      · cases b <;> cases hf
    · rename_i hstr
      have kinds' : ∀ x ∈ l, (∃ i, x = .int i) ∨ ∃ b, x = .bool b := by
        intro x hx
        rcases kinds x hx with ⟨s, rfl⟩ | hk
        · exact absurd (List.any_eq_true.2 ⟨_, hx, rfl⟩) hstr
        · exact hk
      split at e
      · refine .inr (.inl ?_)
        intro x hx
        have hf := fixed promoteInt e x hx
        rcases kinds' x hx with hk | ⟨b, rfl⟩
        · exact hk
        · cases b <;> cases hf
      · rename_i hint
        refine .inr (.inr (.inl ?_))
        intro x hx
        rcases kinds' x hx with ⟨i, rfl⟩ | hk
        · exact absurd (List.any_eq_true.2 ⟨_, hx, rfl⟩) hint
        · exact hk

/-- C54. Integers and booleans keep their numbers and their order, whatever the dimensions. -/
theorem C54_numbers (d d' : Doc) (k : Int) (hn : ∀ x ∈ cells d, (∃ i, x = .int i) ∨ ∃ b, x = .bool b)
    (h : redim d (.int k) = .ok d') : (cells d').map asNumber = (cells d).map asNumber := by
  rw [cells_redim h]
  unfold promote
  split
  · rfl
  · split
    · rename_i hs
      obtain ⟨x, hx, hy⟩ := List.any_eq_true.1 hs
      rcases hn x hx with ⟨i, rfl⟩ | ⟨b, rfl⟩ <;> cases hy
    · split
      · rw [List.map_map]
        apply List.map_congr_left
        intro x hx
        rcases hn x hx with ⟨i, rfl⟩ | ⟨b, rfl⟩
        · rfl
        · cases b <;> rfl
      · rfl

example : redim (.list [.list [.int 7, .bool false], .list [.bool true, .int 0]]) (.int 1) =
    .ok (.list [.int 7, .int 0, .int 1, .int 0]) := rfl

/-- C54. When there is a text, and nothing but texts, integers and booleans, all values become their texts, in the same order. -/
theorem C54_texts (d d' : Doc) (k : Int) (hn : ∀ x ∈ cells d, (∃ s, x = .str s) ∨ (∃ i, x = .int i) ∨ ∃ b, x = .bool b)
    (ht : ∃ s, .str s ∈ cells d) (h : redim d (.int k) = .ok d') : cells d' = (cells d).map (fun x => .str (asText x)) := by
  rw [cells_redim h]
  unfold promote
  split
  · rename_i hs
    obtain ⟨x, hx, hy⟩ := List.any_eq_true.1 hs
    rcases hn x hx with ⟨i, rfl⟩ | ⟨i, rfl⟩ | ⟨b, rfl⟩ <;> cases hy
  · split
    · apply List.map_congr_left
      intro x hx
      rcases hn x hx with ⟨i, rfl⟩ | ⟨i, rfl⟩ | ⟨b, rfl⟩
      · rfl
      · rfl
      · cases b <;> rfl
    · rename_i hs
      obtain ⟨s, hs'⟩ := ht
      exact absurd (List.any_eq_true.2 ⟨_, hs', rfl⟩) hs

example : redim (.list [.list [.int 7, .bool false], .list [.str ['a'], .int (-1)]]) (.int 1) =
    .ok (.list [.str ['7'], .str "False".toList, .str ['a'], .str "-1".toList]) := rfl

/-- C54 is false of the code when texts and numbers are mixed: numpy makes texts of the numbers. -/
theorem C54_mixed_refuted : redim (.list [.list [.int 1, .str ['a']]]) (.int 1) =
    .ok (.list [.str ['1'], .str ['a']]) := by rfl

private theorem within_reverse {sh ix : List Nat} (h : InShape sh ix) : InShape sh.reverse ix.reverse := by
  have app : ∀ {a b : List Nat} {n i : Nat}, InShape a b → i < n → InShape (a ++ [n]) (b ++ [i]) := by
    intro a
    induction a with
    | nil => intro b n i hw hi; cases b with
      | nil => exact ⟨hi, trivial⟩
      | cons => simp [InShape] at hw
    | cons x a ih => intro b n i hw hi; cases b with
      | nil => simp [InShape] at hw
      | cons y b => exact ⟨hw.1, ih hw.2 hi⟩
  induction sh generalizing ix with
  | nil => cases ix with
    | nil => trivial
    | cons => simp [InShape] at h
  | cons n sh ih => cases ix with
    | nil => simp [InShape] at h
    | cons i ix =>
      rw [List.reverse_cons, List.reverse_cons]
      exact app (ih h.2) h.1

private theorem volume_append (a b : List Nat) : volume (a ++ b) = volume a * volume b := by
  induction a with
  | nil => simp [volume]
  | cons n a ih => simp [volume, ih, Nat.mul_assoc]

private theorem volume_reverse (sh : List Nat) : volume sh.reverse = volume sh := by
  induction sh with
  | nil => rfl
  | cons n sh ih => rw [List.reverse_cons, volume_append, ih]; simp [volume, Nat.mul_comm]

private theorem getD_leaf {l : List Doc} (h : ∀ x ∈ l, isList x = false) (i : Nat) : isList ((l[i]?).getD .null) = false := by
  cases hi : l[i]? with
  | none => rfl
  | some x => exact h x (List.mem_of_getElem? hi)

/-- C54. Transposing a table, or any regular nesting, exchanges indexes and keeps all values. -/
theorem C54_transpose (d : Doc) (sh : List Nat) (hs : Shape sh d) (hz : ∀ n ∈ sh.dropLast, n ≠ 0) (hu : Uniform (cells d)) :
    ∃ d', redim d (.pair none true) = .ok d' ∧ Shape sh.reverse d' ∧
      ∀ ix, InShape sh ix → nth d' ix.reverse = nth d ix := by
  rw [cells_eq] at hu
  have hsh := shapeOf_eq hs hz
  have ha : asarray d = .ok ⟨sh, leaves d⟩ := by
    rw [asarray, hsh, if_pos ((hasShape_iff _ _).2 hs), promote_uniform hu]
  obtain ⟨hl, hnl⟩ := shape_leaves hs
  have htl := tolist_shape sh.reverse ((indices sh.reverse).map (fun ix => ((leaves d)[ravel sh ix.reverse]?).getD .null))
    (by rw [List.length_map, indices_length])
    (by intro x hx; obtain ⟨ix, _, rfl⟩ := List.mem_map.1 hx; exact getD_leaf hnl _)
  refine ⟨_, by simp only [redim, ha, NdArr.transpose, if_true], htl.1, ?_⟩
  intro ix hix
  have hr := within_reverse hix
  rw [shape_nth htl.1 hr, htl.2, List.getElem?_map, indices_get hr, shape_nth hs hix]
  simp only [Option.map_some, List.reverse_reverse]
  have : ravel sh ix < (leaves d).length := by rw [hl]; exact within_ravel hix
  simp [this]

/-- C54. Asking for dimensions and a transposition, the values are those of the transposed. -/
theorem C54_transpose_then_dims (d d1 d' : Doc) (k : Int)
    (h1 : redim d (.pair none true) = .ok d1) (h : redim d (.pair (some k) true) = .ok d') : cells d' = cells d1 := by
  unfold redim at h h1
  split at h
  · simp at h
  · rename_i a ha
    simp only [if_true] at h h1
    split at h
    · simp at h
    · rename_i b hb
      simp only [ha, Except.ok.injEq] at h h1
      obtain ⟨hs, rfl⟩ := asarray_ok ha
      obtain ⟨hl, hnl⟩ := shape_leaves hs
      have hnl' : ∀ x ∈ promote (leaves d), isList x = false := by
        intro x hx
        unfold promote at hx
        have hps : ∀ y, isList y = false → isList (promoteStr y) = false := by
          intro y hy; cases y <;> first | rfl | (rename_i b; cases b <;> rfl) | simpa [promoteStr] using hy
        have hpi : ∀ y, isList y = false → isList (promoteInt y) = false := by
          intro y hy; cases y <;> first | rfl | (rename_i b; cases b <;> rfl) | simpa [promoteInt] using hy
        split at hx
        · exact hnl x hx
        · split at hx
          · obtain ⟨y, hy, rfl⟩ := List.mem_map.1 hx; exact hps y (hnl y hy)
          · split at hx
            · obtain ⟨y, hy, rfl⟩ := List.mem_map.1 hx; exact hpi y (hnl y hy)
            · exact hnl x hx
      have hTl : (NdArr.transpose ⟨shapeOf d, promote (leaves d)⟩).data.length =
          volume (NdArr.transpose ⟨shapeOf d, promote (leaves d)⟩).shape := by
        simp only [NdArr.transpose, List.length_map, indices_length]
      have hTn : ∀ x ∈ (NdArr.transpose ⟨shapeOf d, promote (leaves d)⟩).data, isList x = false := by
        intro x hx
        obtain ⟨ix, _, rfl⟩ := List.mem_map.1 hx
        exact getD_leaf hnl' _
      obtain ⟨e1, e2⟩ := toDim_ok hb hTl
      rw [← h, ← h1, cells_eq, cells_eq, (tolist_shape b.shape b.data e2 (by rw [e1]; exact hTn)).2, e1,
        (tolist_shape _ _ hTl hTn).2]

private theorem trivials_length (sh : List Nat) :
    ((List.range sh.length).filter (fun i => sh[i]? == some 1)).length + (sh.filter (fun d => decide (d ≠ 1))).length =
      sh.length := by
  induction sh with
  | nil => rfl
  | cons n sh ih =>
    rw [List.length_cons, List.range_succ_eq_map, List.filter_cons, List.filter_map]
    have e : (List.range sh.length).filter ((fun i => (n :: sh)[i]? == some 1) ∘ Nat.succ) =
        (List.range sh.length).filter (fun i => sh[i]? == some 1) := by
      congr 1
    rw [e]
    by_cases h : n = 1
    · simp [h] at ih ⊢; omega
    · simp [h] at ih ⊢; omega

/-- C54. Captured values, which are scalars or tables, get the asked number of dimensions whenever their
shape permits it, and are put in one row otherwise. -/
theorem C54_dims (d : Doc) (sh : List Nat) (hs : Shape sh d) (hz : ∀ n ∈ sh.dropLast, n ≠ 0) (h2 : sh.length ≤ 2) (k : Int)
    (hu : Uniform (cells d)) :
    ∃ d' sh', redim d (.int k) = .ok d' ∧ Shape sh' d' ∧ count sh' = count sh ∧
      (Permits sh k → (sh'.length : Int) = k) ∧ (¬ Permits sh k → sh'.length = 1) := by
  rw [cells_eq] at hu
  have hsh := shapeOf_eq hs hz
  have ha : asarray d = .ok ⟨sh, leaves d⟩ := by
    rw [asarray, hsh, if_pos ((hasShape_iff _ _).2 hs), promote_uniform hu]
  obtain ⟨hl, hnl⟩ := shape_leaves hs
  have key : ∃ b, toDim ⟨sh, leaves d⟩ k = .ok b ∧ (Permits sh k → (b.shape.length : Int) = k) ∧
      (¬ Permits sh k → b.shape.length = 1) := by
    unfold toDim Permits
    simp only
    split
    · refine ⟨_, rfl, ?_, ?_⟩ <;> simp [updim] <;> omega
    · split
      · -- going down
        have hT := trivials_length sh
        unfold downdim
        simp only
        split
        · refine ⟨_, rfl, fun hp => ?_, fun _ => rfl⟩
          simp only [List.length_singleton]; omega
        · split
          · have : sh.filter (fun d => d != 1) = sh.filter (fun d => decide (d ≠ 1)) := by
              congr 1; funext d; by_cases h : d = 1 <;> simp [h]
            refine ⟨_, rfl, ?_, ?_⟩ <;> simp only [this] <;> omega
          · have hall : ∀ n ∈ sh, n = 1 := by
              have h0 : (sh.filter (fun d => decide (d ≠ 1))).length = 0 := by omega
              intro n hn
              by_cases h1 : n = 1
              · exact h1
              · have := List.eq_nil_of_length_eq_zero h0
                have hm : n ∈ sh.filter (fun d => decide (d ≠ 1)) := by simp [hn, h1]
                rw [this] at hm; simp at hm
            have hl2 : sh.length = 2 := by omega
            have hk : k = 1 := by omega
            match sh, hl2 with
            | [a, b], _ =>
              have h1 := hall a (by simp)
              have h3 := hall b (by simp)
              subst h1 h3 hk
              exact ⟨⟨[1], leaves d⟩, rfl, by simp, by simp⟩
      · refine ⟨_, rfl, ?_, ?_⟩ <;> simp <;> omega
  obtain ⟨b, hb, hk1, hk2⟩ := key
  obtain ⟨e1, e2⟩ := toDim_ok hb hl
  refine ⟨tolist b.shape b.data, b.shape, by simp only [redim, ha, hb], ?_, ?_, hk1, hk2⟩
  · exact (tolist_shape b.shape b.data e2 (by rw [e1]; exact hnl)).1
  · rw [count_eq, count_eq, ← e2, e1]; exact hl

example : Shape [2, 3] (.list [.list [.int 1, .int 2, .int 3], .list [.int 4, .int 5, .int 6]]) :=
  .list [_, _] [3] (by
    intro x hx
    simp at hx
    rcases hx with rfl | rfl <;>
    exact .list [_, _, _] [] (by intro y hy; simp at hy; rcases hy with rfl | rfl | rfl <;> exact .leaf _ rfl))
example : redim (.list [.list [.int 1, .int 2, .int 3], .list [.int 4, .int 5, .int 6]]) (.pair none true) =
    .ok (.list [.list [.int 1, .int 4], .list [.int 2, .int 5], .list [.int 3, .int 6]]) := rfl
example : redim (.list [.list [.int 7]]) (.int 0) = .ok (.int 7) := rfl

/-- C54 does not extend to deeper values: dropping trivial dimensions one by one, the code does not take
into account that the later ones have moved. -/
theorem C54_deeper_refuted : ∃ d, Shape [1, 2, 1, 2, 1] d ∧ Permits [1, 2, 1, 2, 1] 3 ∧ Uniform (cells d) ∧
    redim d (.int 3) = .error .valueError := by
  refine ⟨.list [.list [.list [.list [.list [.int 1], .list [.int 2]]], .list [.list [.list [.int 3], .list [.int 4]]]]],
    (hasShape_iff _ _).1 rfl, .inr (.inr (by decide)), .inr (.inl ?_), rfl⟩
  simp [cells, cellsOf]

/-- The filter that imitates *xlwings*. -/
def xlwings {S : Type} (l : Lasso S) : Except PyErr (Lasso S) :=
  redimFilter l (some (.int 0)) (some (.int 1)) (some (.int 1)) (some (.int 1)) (some (.int 2))

private theorem table_shape {t : List (List Doc)} {c : Nat} (hc : ∀ row ∈ t, row.length = c)
    (hl : ∀ row ∈ t, ∀ x ∈ row, isList x = false) : Shape [t.length, c] (.list (t.map .list)) := by
  have := Shape.list (t.map Doc.list) [c] (by
    intro x hx
    obtain ⟨row, hr, rfl⟩ := List.mem_map.1 hx
    rw [← hc row hr]
    exact .list row [] (fun y hy => .leaf _ (hl row hr y hy)))
  simpa using this

private theorem leaves_row {row : List Doc} (h : ∀ x ∈ row, isList x = false) : leavesL row = row := by
  induction row with
  | nil => rfl
  | cons x xs ih => rw [leavesL, leaves_leaf (h x (by simp)), ih (fun y hy => h y (by simp [hy]))]; rfl

private theorem leaves_table {t : List (List Doc)} (hl : ∀ row ∈ t, ∀ x ∈ row, isList x = false) :
    leaves (.list (t.map .list)) = t.flatten := by
  rw [leaves]
  induction t with
  | nil => rfl
  | cons r t ih =>
    rw [List.map_cons, leavesL, leaves, leaves_row (hl r (by simp)), ih (fun x hx => hl x (by simp [hx])), List.flatten_cons]

private theorem shape1_eq {n : Nat} {d : Doc} (h : Shape [n] d) : d = .list (leaves d) := by
  cases h with
  | list xs _ hx =>
    have : ∀ x ∈ xs, isList x = false := by
      intro x hxm
      cases hx x hxm with
      | leaf _ h => exact h
    rw [leaves, leaves_row this]

private theorem redim_same {d : Doc} {sh : List Nat} (hs : Shape sh d) (hz : ∀ n ∈ sh.dropLast, n ≠ 0) (hu : Uniform (cells d)) :
    ∃ d', redim d (.int sh.length) = .ok d' ∧ Shape sh d' ∧ leaves d' = leaves d := by
  rw [cells_eq] at hu
  have ha : asarray d = .ok ⟨sh, leaves d⟩ := by
    rw [asarray, shapeOf_eq hs hz, if_pos ((hasShape_iff _ _).2 hs), promote_uniform hu]
  obtain ⟨hl, hnl⟩ := shape_leaves hs
  obtain ⟨h1, h2⟩ := tolist_shape sh (leaves d) hl hnl
  refine ⟨_, ?_, h1, h2⟩
  simp [redim, ha, toDim]

/-- Regular nestings of the same shape and values are equal. -/
private theorem shape_ext : ∀ {sh : List Nat} {d d' : Doc}, Shape sh d → Shape sh d' → leaves d = leaves d' → d = d' := by
  intro sh
  induction sh with
  | nil =>
    intro d d' h h' e
    cases h with | leaf _ h => cases h' with | leaf _ h' =>
    rw [leaves_leaf h, leaves_leaf h'] at e
    simpa using e
  | cons n sh ih =>
    intro d d' h h' e
    cases h with | list xs _ hx =>
    generalize hn : xs.length = m at h'
    cases h' with | list ys _ hy =>
    rw [leaves, leaves, leavesL_eq, leavesL_eq] at e
    congr 1
    induction xs generalizing ys with
    | nil => simp at hn; exact (List.eq_nil_of_length_eq_zero hn.symm).symm
    | cons x xs ihx =>
      cases ys with
      | nil => simp at hn
      | cons y ys =>
        rw [List.flatMap_cons, List.flatMap_cons] at e
        have hl : (leaves x).length = (leaves y).length := by
          rw [(shape_leaves (hx x (by simp))).1, (shape_leaves (hy y (by simp))).1]
        obtain ⟨e1, e2⟩ := List.append_inj e hl
        rw [ih (hx x (by simp)) (hy y (by simp)) e1,
          ihx (fun z hz => hx z (by simp [hz])) ys (by simpa using hn) (fun z hz => hy z (by simp [hz])) e2]

/-- C54. With the dimensions of *xlwings*, a captured row, column or single cell becomes the plain list of
its values, and a table stays as it is. -/
theorem C54_xlwings_partial {S : Type} (l : Lasso S) (st nd : Coords) (hst : l.st = some st) (hnd : l.nd = some nd)
    (t : List (List Doc)) (hv : l.values = .list (t.map .list)) (r c : Nat)
    (hr : nd.row - st.row = r) (hc : nd.col - st.col = c) (hlen : t.length = r + 1)
    (hrow : ∀ row ∈ t, row.length = c + 1) (hleaf : ∀ row ∈ t, ∀ x ∈ row, isList x = false)
    (hu : Uniform t.flatten) :
    xlwings l = .ok { l with values := if r = 0 ∨ c = 0 then .list t.flatten else .list (t.map .list) } := by
  have hs := table_shape hrow hleaf
  have hz : ∀ n ∈ [t.length, c + 1].dropLast, n ≠ 0 := by simp [hlen]
  have hu' : Uniform (cells (.list (t.map .list))) := by rw [cells_eq, leaves_table hleaf]; exact hu
  unfold xlwings redimFilter
  simp only [hst, hnd, classifyRect, hr, hc, hv]
  have hcase : (r = 0 ∨ c = 0) ∨ (r ≠ 0 ∧ c ≠ 0) := by omega
  rcases hcase with h | ⟨h1, h2⟩
  · rw [if_pos h]
    obtain ⟨d', sh', e1, e2, e3, e4, e5⟩ := C54_dims _ _ hs hz (by simp) 1 hu'
    have hlen1 : sh'.length = 1 := by
      have := e4 (.inr (.inl rfl)); omega
    obtain ⟨n, rfl⟩ := List.length_eq_one_iff.1 hlen1
    have hd : d' = .list t.flatten := by
      rw [shape1_eq e2]
      have := C54_values_partial _ _ _ hu' e1
      rw [cells_eq, cells_eq, leaves_table hleaf] at this
      rw [this]
    by_cases hr0 : r = 0
    · by_cases hc0 : c = 0
      · simp [hr0, hc0, e1, hd]
      · simp [hr0, hc0, e1, hd]
    · have hc0 : c = 0 := by omega
      simp [hr0, hc0, e1, hd]
  · rw [if_neg (show ¬ (r = 0 ∨ c = 0) by omega)]
    obtain ⟨d', e1, e2, e3⟩ := redim_same hs hz hu'
    have : d' = .list (t.map .list) := shape_ext e2 hs e3
    simp only [List.length_cons, List.length_nil] at e1
    have e1' : redim (.list (t.map .list)) (.int 2) = .ok d' := e1
    simp [h1, h2, e1', this]

example : xlwings (S := Unit) { st := some ⟨2, 3⟩, nd := some ⟨4, 3⟩, values := .list [.list [.int 1], .list [.int 2], .list [.int 3]] } =
    .ok { st := some ⟨2, 3⟩, nd := some ⟨4, 3⟩, values := .list [.int 1, .int 2, .int 3] } := rfl

/-- What is asked for the rectangle from `st` to `nd`: `scalar` for a single coordinate, else `cell`, `row`,
`col` or `table` according to the rows and columns it has. -/
inductive Asked (scalar cell row col table : Option NDim) (st : Coords) : Option Coords → Option NDim → Prop
  | scalar : Asked scalar cell row col table st none scalar
  | cell (nd : Coords) : nd.row = st.row → nd.col = st.col → Asked scalar cell row col table st (some nd) cell
  | row (nd : Coords) : nd.row = st.row → nd.col ≠ st.col → Asked scalar cell row col table st (some nd) row
  | col (nd : Coords) : nd.row ≠ st.row → nd.col = st.col → Asked scalar cell row col table st (some nd) col
  | table (nd : Coords) : nd.row ≠ st.row → nd.col ≠ st.col → Asked scalar cell row col table st (some nd) table

/-- C54. The `redim` filter uses what is asked for the shape of the captured rectangle; when nothing is asked
for it, nothing changes. -/
theorem C54_choice {S : Type} (l : Lasso S) (st : Coords) (hst : l.st = some st)
    (scalar cell row col table asked : Option NDim) (h : Asked scalar cell row col table st l.nd asked) :
    (asked = none → redimFilter l scalar cell row col table = .ok l) ∧
    (∀ n v, asked = some n → redim l.values n = .ok v →
      redimFilter l scalar cell row col table = .ok { l with values := v }) ∧
    (∀ n e, asked = some n → redim l.values n = .error e →
      redimFilter l scalar cell row col table = .error e) := by
  have key : ([scalar, cell, row, col, table][classifyRect l.st l.nd]?).bind id = asked := by
    rw [hst]
    generalize hn : l.nd = x at h
    cases h with
    | scalar => cases scalar <;> rfl
    | cell nd h1 h2 =>
      have : classifyRect (some st) (some nd) = 1 := by simp [classifyRect, h1, h2]
      rw [this]; rfl
    | row nd h1 h2 =>
      have : nd.col - st.col ≠ 0 := by omega
      have : classifyRect (some st) (some nd) = 2 := by simp [classifyRect, h1, this]
      rw [this]; rfl
    | col nd h1 h2 =>
      have : nd.row - st.row ≠ 0 := by omega
      have : classifyRect (some st) (some nd) = 3 := by simp [classifyRect, h2, this]
      rw [this]; rfl
    | table nd h1 h2 =>
      have h3 : nd.row - st.row ≠ 0 := by omega
      have h4 : nd.col - st.col ≠ 0 := by omega
      have : classifyRect (some st) (some nd) = 4 := by simp [classifyRect, h3, h4]
      rw [this]; rfl
  unfold redimFilter
  rw [key]
  refine ⟨?_, ?_, ?_⟩
  · rintro rfl; rfl
  · rintro n v rfl hv; simp only [hv]
  · rintro n v rfl hv; simp only [hv]

/-- A column of two cells, to be read as a plain list. -/
example : Asked none none none (some (.int 1)) none ⟨0, 0⟩ (some ⟨1, 0⟩) (some (.int 1)) := .col _ (by decide) (by decide)

/-- C54. Nested lists that are not regular are refused. -/
theorem C54_irregular (d : Doc) (n : NDim) (h : ∀ sh, ¬ Shape sh d) : redim d n = .error .valueError := by
  have ha : asarray d = .error .valueError := by
    unfold asarray
    rw [if_neg]
    intro hs
    exact h _ ((hasShape_iff _ _).1 hs)
  simp only [redim, ha]

/-- A table with rows of different lengths, and one with a value in the place of a row. -/
example : (∀ sh, ¬ Shape sh (.list [.list [.int 1], .list [.int 2, .int 3]])) ∧
    (∀ sh, ¬ Shape sh (.list [.list [.int 1], .int 2])) := by
  constructor
  · intro sh h
    cases h with
    | leaf _ h => simp [isList] at h
    | list xs sh h =>
      have h1 := h _ (by simp : Doc.list [.int 1] ∈ _)
      have h2 := h _ (by simp : Doc.list [.int 2, .int 3] ∈ _)
      exact absurd h1 (by
        intro h1
        have e := (hasShape_iff _ _).2 h1
        have e2 := (hasShape_iff _ _).2 h2
        cases sh with
        | nil => simp [hasShape] at e
        | cons n sh => simp only [hasShape, List.length_cons, List.length_nil, Bool.and_eq_true, beq_iff_eq, Bool.false_eq_true] at e e2; omega)
  · intro sh h
    cases h with
    | leaf _ h => simp [isList] at h
    | list xs sh h =>
      have h1 := h _ (by simp : Doc.list [.int 1] ∈ _)
      have h2 := h _ (by simp : Doc.int 2 ∈ _)
      exact absurd h1 (by
        intro h1
        have e := (hasShape_iff _ _).2 h1
        have e2 := (hasShape_iff _ _).2 h2
        cases sh with
        | nil => simp [hasShape] at e
        | cons n sh => simp only [hasShape, List.length_cons, List.length_nil, Bool.and_eq_true, beq_iff_eq, Bool.false_eq_true] at e e2)

end Props
