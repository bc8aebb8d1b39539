import Verif.Spec.FrameMerge
import Verif.Lemmas.Dict
set_option linter.unusedSimpArgs false
/-
C117 merging of DataFrames.
-/
namespace Props
open Py Model Spec

variable {V : Type}

/-- The value of a cell. -/
private def val (t : Table V) (r c : Label) : Option V :=
  match dget t.cols c with
  | none => none
  | some cells => (dget (t.rows.zip cells) r).getD none

private theorem dget_zip_iff {rows : List Label} {x : Option V} {r : Label} (hn : rows.Nodup) :
    ∀ cells : List (Option V), dget (rows.zip cells) r = some x ↔ ∃ i : Nat, rows[i]? = some r ∧ cells[i]? = some x := by
  induction rows with
  | nil => intro cells; simp [dget]
  | cons r0 rows ih =>
    intro cells
    obtain ⟨h1, h2⟩ := List.nodup_cons.1 hn
    cases cells with
    | nil => simp [dget]
    | cons x0 cells =>
      rw [List.zip_cons_cons, dget_cons]
      by_cases e : r0 = r
      · subst e
        simp only [if_true, Option.some.injEq]
        constructor
        · rintro rfl; exact ⟨0, rfl, rfl⟩
        · rintro ⟨i, a, b⟩
          cases i with
          | zero => simpa using b
          | succ i => exact absurd (List.mem_of_getElem? (by simpa using a)) h1
      · simp only [e, if_false, ih h2 cells]
        constructor
        · rintro ⟨i, a, b⟩; exact ⟨i + 1, by simpa using a, by simpa using b⟩
        · rintro ⟨i, a, b⟩
          cases i with
          | zero => simp at a; exact absurd a e
          | succ i => exact ⟨i, by simpa using a, by simpa using b⟩

private theorem cell_iff {t : Table V} (h : WholeTable t) (r c : Label) (v : V) : CellAt t r c v ↔ val t r c = some v := by
  unfold val
  constructor
  · rintro ⟨i, cells, h1, h2, h3⟩
    rw [dget_of_mem h.cols h2]
    simp only [(dget_zip_iff h.rows cells).2 ⟨i, h1, h3⟩, Option.getD_some]
  · intro e
    cases hc : dget t.cols c with
    | none => simp [hc] at e
    | some cells =>
      simp only [hc] at e
      cases hz : dget (t.rows.zip cells) r with
      | none => simp [hz] at e
      | some x =>
        simp only [hz, Option.getD_some] at e
        subst e
        obtain ⟨i, h1, h2⟩ := (dget_zip_iff h.rows cells).1 hz
        exact ⟨i, cells, h1, mem_of_dget hc, h2⟩

private theorem dget_zip_map (f : Label → Option V) (r : Label) (rows : List Label) :
    dget (rows.zip (rows.map f)) r = if r ∈ rows then some (f r) else none := by
  induction rows with
  | nil => simp [dget]
  | cons r0 rows ih =>
    rw [List.map_cons, List.zip_cons_cons, dget_cons, ih]
    by_cases e : r0 = r
    · subst e; simp
    · simp [e, Ne.symm e]

private theorem dget_zipWith (g : Option V → Option V → Option V) (f : Label → Option V) (r : Label) (rows : List Label) :
    ∀ cells : List (Option V), dget (rows.zip (List.zipWith g cells (rows.map f))) r =
      (dget (rows.zip cells) r).map (fun x => g x (f r)) := by
  induction rows with
  | nil => intro cells; simp [dget]
  | cons r0 rows ih =>
    intro cells
    cases cells with
    | nil => simp [dget]
    | cons x cells =>
      rw [List.map_cons, List.zipWith_cons_cons, List.zip_cons_cons, List.zip_cons_cons, dget_cons, dget_cons, ih]
      by_cases e : r0 = r
      · subst e; simp
      · simp [e]

private theorem dget_zip_none {r : Label} {rows : List Label} (h : r ∉ rows) :
    ∀ cells : List (Option V), dget (rows.zip cells) r = none := by
  intro cells
  rw [dget_eq_none_iff]
  intro hm
  obtain ⟨p, hp, rfl⟩ := List.mem_map.1 hm
  exact h (List.of_mem_zip hp).1

private theorem dget_zip_some {r : Label} {rows : List Label} (h : r ∈ rows) :
    ∀ cells : List (Option V), cells.length = rows.length → ∃ x, dget (rows.zip cells) r = some x := by
  intro cells hl
  have : dkeys (rows.zip cells) = rows := by
    unfold dkeys
    rw [List.map_fst_zip (by omega)]
  exact (mem_dkeys_iff _ _).1 (by rw [this]; exact h)

private theorem val_no_row {t : Table V} {r c : Label} (h : r ∉ t.rows) : val t r c = none := by
  unfold val
  cases dget t.cols c with
  | none => rfl
  | some cells => simp only [dget_zip_none h, Option.getD_none]

private theorem val_update {a b : Table V} (ha : WholeTable a) (r c : Label) (hr : r ∈ a.rows) (hc : c ∈ dkeys a.cols) :
    val (a.update b) r c = (val b r c).or (val a r c) := by
  obtain ⟨cells, e⟩ := (mem_dkeys_iff _ _).1 hc
  have hl := ha.cells _ (mem_of_dget e)
  obtain ⟨x, hx⟩ := dget_zip_some hr cells hl
  unfold val Table.update
  simp only
  rw [dget_map_val a.cols (a.updated b), e]
  simp only [Option.map_some, hx, Option.getD_some, Table.updated]
  cases hb : dget b.cols c with
  | none => simp [hx]
  | some bc =>
    simp only [Table.aligned, dget_zipWith, hx, Option.map_some, Option.getD_some]
    cases (dget (b.rows.zip bc) r).getD none with
    | none => simp [updateCell]
    | some w => simp [updateCell]

private theorem update_keys (a b : Table V) : dkeys (a.update b).cols = dkeys a.cols := by
  simp [Table.update, dkeys, Function.comp_def]

private theorem update_rect {a b : Table V} (ha : WholeTable a) : WholeTable (a.update b) := by
  refine ⟨ha.rows, ?_, ?_⟩
  · have := update_keys a b
    unfold dkeys at this
    rw [this]; exact ha.cols
  · intro c hc
    obtain ⟨d, hd, rfl⟩ := List.mem_map.1 hc
    have := ha.cells d hd
    simp only [Table.update, Table.updated]
    cases dget b.cols d.1 with
    | none => exact this
    | some cells => simp [Table.aligned, this]

private theorem val_append {a : Table V} {c : Label} {cells : List (Option V)} (hc : c ∉ dkeys a.cols) (r d : Label) :
    val ⟨a.rows, a.cols ++ [(c, cells)]⟩ r d = if d = c then (dget (a.rows.zip cells) r).getD none else val a r d := by
  unfold val
  simp only [dget_append]
  by_cases e : d = c
  · subst e
    rw [(dget_eq_none_iff _ _).2 hc]
    simp [dget_cons, dget]
  · cases dget a.cols d with
    | some x => simp [e]
    | none => simp [dget_cons, dget, Ne.symm e, e]

/-- Columns put into a table that has rows. -/
private theorem setColumns_spec {b : Table V} (cs : List Label) : ∀ a : Table V, WholeTable a → a.rows ≠ [] → cs.Nodup →
    (∀ c ∈ cs, c ∈ dkeys b.cols ∧ c ∉ dkeys a.cols) →
    (a.setColumns b cs).rows = a.rows ∧ dkeys (a.setColumns b cs).cols = dkeys a.cols ++ cs ∧ WholeTable (a.setColumns b cs) ∧
    ∀ r d, r ∈ a.rows → val (a.setColumns b cs) r d = if d ∈ cs then val b r d else val a r d := by
  induction cs with
  | nil => intro a ha _ _ _; exact ⟨rfl, by simp [Table.setColumns], ha, fun r d _ => by simp [Table.setColumns]⟩
  | cons c cs ih =>
    intro a ha hr hn hc
    obtain ⟨h1, h2⟩ := hc c (by simp)
    obtain ⟨cells, e⟩ := (mem_dkeys_iff _ _).1 h1
    have es : a.setColumn b c = ⟨a.rows, a.cols ++ [(c, b.aligned cells a.rows)]⟩ := by
      unfold Table.setColumn; rw [e]; simp only [if_neg hr]
    obtain ⟨n1, n2⟩ := List.nodup_cons.1 hn
    have hk : dkeys (a.cols ++ [(c, b.aligned cells a.rows)]) = dkeys a.cols ++ [c] := by simp [dkeys]
    have hrect : WholeTable (a.setColumn b c) := by
      rw [es]
      refine ⟨ha.rows, ?_, ?_⟩
      · show (dkeys _).Nodup
        rw [hk, List.nodup_append]
        refine ⟨ha.cols, by simp, ?_⟩
        rintro x hx y hy rfl
        simp at hy; subst hy; exact h2 hx
      · intro d hd
        rcases List.mem_append.1 hd with h | h
        · exact ha.cells d h
        · simp at h; subst h; simp [Table.aligned]
    obtain ⟨i1, i2, i3, i4⟩ := ih (a.setColumn b c) hrect (by rw [es]; exact hr) n2 (by
      intro d hd
      refine ⟨(hc d (by simp [hd])).1, ?_⟩
      rw [es]
      show d ∉ dkeys (a.cols ++ _)
      rw [hk]
      intro hm
      rcases List.mem_append.1 hm with h | h
      · exact (hc d (by simp [hd])).2 h
      · simp at h; subst h; exact n1 hd)
    rw [Table.setColumns]
    refine ⟨by rw [i1, es], ?_, i3, ?_⟩
    · rw [i2, es]; simp only [hk]; simp
    · intro r d hrr
      rw [i4 r d (by rw [es]; exact hrr), es, val_append h2]
      by_cases ed : d = c
      · subst ed
        simp only [n1, if_false, if_true, List.mem_cons, true_or, Table.aligned, dget_zip_map, if_pos hrr, Option.getD_some]
        unfold val
        rw [e]
      · simp [ed]

/-- Columns put into a table without rows. -/
private theorem setColumns_empty {b : Table V} (hb : WholeTable b) (cs : List Label) : ∀ a : Table V, WholeTable a → a.rows = [] →
    cs.Nodup → (∀ c ∈ cs, c ∈ dkeys b.cols ∧ c ∉ dkeys a.cols) →
    (a.setColumns b cs).rows = (if cs = [] then [] else b.rows) ∧ dkeys (a.setColumns b cs).cols = dkeys a.cols ++ cs ∧
    WholeTable (a.setColumns b cs) ∧
    ∀ r d, val (a.setColumns b cs) r d = if d ∈ cs then val b r d else none := by
  induction cs with
  | nil =>
    intro a ha he _ _
    exact ⟨by simp [Table.setColumns, he], by simp [Table.setColumns], ha,
      fun r d => by simp [Table.setColumns]; exact val_no_row (by rw [he]; simp)⟩
  | cons c cs ih =>
    intro a ha he hn hc
    obtain ⟨h1, h2⟩ := hc c (by simp)
    obtain ⟨cells, e⟩ := (mem_dkeys_iff _ _).1 h1
    have es : a.setColumn b c = ⟨b.rows, a.cols.map (fun d => (d.1, b.rows.map (fun _ => none))) ++ [(c, cells)]⟩ := by
      unfold Table.setColumn; rw [e]; simp only [if_pos he]
    obtain ⟨n1, n2⟩ := List.nodup_cons.1 hn
    have hk0 : dkeys (a.cols.map (fun d => (d.1, b.rows.map (fun _ => (none : Option V))))) = dkeys a.cols := by
      simp [dkeys, Function.comp_def]
    have hk : dkeys (a.setColumn b c).cols = dkeys a.cols ++ [c] := by
      rw [es]; simp [dkeys, Function.comp_def]
    have hrect : WholeTable (a.setColumn b c) := by
      refine ⟨by rw [es]; exact hb.rows, ?_, ?_⟩
      · show (dkeys _).Nodup
        rw [hk, List.nodup_append]
        refine ⟨ha.cols, by simp, ?_⟩
        rintro x hx y hy rfl
        simp at hy; subst hy; exact h2 hx
      · rw [es]
        intro d hd
        rcases List.mem_append.1 hd with h | h
        · obtain ⟨d', -, rfl⟩ := List.mem_map.1 h; simp
        · simp at h; subst h; exact hb.cells _ (mem_of_dget e)
    have hdis : ∀ d ∈ cs, d ∈ dkeys b.cols ∧ d ∉ dkeys (a.setColumn b c).cols := by
      intro d hd
      refine ⟨(hc d (by simp [hd])).1, ?_⟩
      rw [hk]
      intro hm
      rcases List.mem_append.1 hm with h | h
      · exact (hc d (by simp [hd])).2 h
      · simp at h; subst h; exact n1 hd
    have hv : ∀ r d, val (a.setColumn b c) r d = if d = c then val b r d else none := by
      intro r d
      rw [es]
      have := val_append (a := ⟨b.rows, a.cols.map (fun d => (d.1, b.rows.map (fun _ => none)))⟩) (c := c) (cells := cells)
        (by simp only [hk0]; exact h2) r d
      simp only at this
      rw [this]
      by_cases ed : d = c
      · subst ed; simp only [if_true]; unfold val; rw [e]
      · simp only [ed, if_false]
        unfold val
        simp only
        rw [dget_map_val a.cols (fun _ _ => b.rows.map (fun _ => (none : Option V)))]
        cases dget a.cols d with
        | none => rfl
        | some x =>
          simp only [Option.map_some]
          rw [dget_zip_map (fun _ => none)]
          split <;> rfl
    rw [Table.setColumns]
    by_cases hbr : b.rows = []
    · obtain ⟨i1, i2, i3, i4⟩ := ih (a.setColumn b c) hrect (by rw [es]; exact hbr) n2 hdis
      refine ⟨by rw [i1]; simp [hbr], by rw [i2, hk]; simp, i3, ?_⟩
      intro r d
      rw [i4]
      have : val b r d = none := val_no_row (by rw [hbr]; simp)
      simp [this]
    · obtain ⟨i1, i2, i3, i4⟩ := setColumns_spec (b := b) cs (a.setColumn b c) hrect (by rw [es]; exact hbr) n2 hdis
      have hrows : (a.setColumn b c).rows = b.rows := by rw [es]
      refine ⟨by rw [i1, hrows]; simp, by rw [i2, hk]; simp, i3, ?_⟩
      intro r d
      by_cases hr : r ∈ b.rows
      · rw [i4 r d (by rw [hrows]; exact hr), hv]
        by_cases ed : d = c
        · subst ed; simp
        · simp [ed]
      · rw [val_no_row (by rw [i1, hrows]; exact hr), val_no_row hr]; simp

/-- A way to make a list of a set. -/
def ListsSet (order : List Label → List Label) : Prop := ∀ l, (order l).Perm l

private theorem extra_mem {a b : Table V} {order : List Label → List Label} (ho : ListsSet order) (c : Label) :
    c ∈ order ((dkeys b.cols).filter (fun c => !(dkeys a.cols).contains c)) ↔ c ∈ dkeys b.cols ∧ c ∉ dkeys a.cols := by
  rw [(ho _).mem_iff]; simp

private theorem extra_nodup {a b : Table V} {order : List Label → List Label} (ho : ListsSet order) (hb : WholeTable b) :
    (order ((dkeys b.cols).filter (fun c => !(dkeys a.cols).contains c))).Nodup :=
  (ho _).nodup_iff.2 (hb.cols.sublist List.filter_sublist)

private theorem val_no_col {t : Table V} {r c : Label} (h : c ∉ dkeys t.cols) : val t r c = none := by
  unfold val; rw [(dget_eq_none_iff _ _).2 h]

private theorem merge_rows {a b : Table V} {order : List Label → List Label} (ho : ListsSet order) (ha : WholeTable a)
    (hb : WholeTable b) (hr : a.rows ≠ []) :
    (a.merge order b).rows = a.rows ∧ WholeTable (a.merge order b) ∧
    ∀ r c, r ∈ a.rows → val (a.merge order b) r c = (val b r c).or (val a r c) := by
  obtain ⟨h1, h2, h3, h4⟩ := setColumns_spec (b := b) (order ((dkeys b.cols).filter (fun c => !(dkeys a.cols).contains c)))
    (a.update b) (update_rect ha) hr (extra_nodup ho hb) (by
      intro c hc; rw [update_keys]; exact (extra_mem ho c).1 hc)
  refine ⟨h1, h3, ?_⟩
  intro r c hrr
  unfold Table.merge
  rw [h4 r c hrr]
  by_cases hc : c ∈ dkeys a.cols
  · rw [if_neg (fun h => ((extra_mem ho c).1 h).2 hc), val_update ha r c hrr hc]
  · rw [val_no_col hc, Option.or_none]
    split
    · rfl
    · next h =>
      rw [extra_mem ho] at h
      have : c ∉ dkeys b.cols := fun hb => h ⟨hb, hc⟩
      rw [val_no_col this, val_no_col (by rw [update_keys]; exact hc)]

private theorem merge_empty {a b : Table V} {order : List Label → List Label} (ho : ListsSet order) (ha : WholeTable a)
    (hb : WholeTable b) (hr : a.rows = []) :
    WholeTable (a.merge order b) ∧ ∀ r c, val (a.merge order b) r c = if c ∈ dkeys a.cols then none else val b r c := by
  obtain ⟨h1, h2, h3, h4⟩ := setColumns_empty hb (order ((dkeys b.cols).filter (fun c => !(dkeys a.cols).contains c)))
    (a.update b) (update_rect ha) hr (extra_nodup ho hb) (by
      intro c hc; rw [update_keys]; exact (extra_mem ho c).1 hc)
  refine ⟨h3, ?_⟩
  intro r c
  unfold Table.merge
  rw [h4 r c]
  by_cases hc : c ∈ dkeys a.cols
  · rw [if_neg (fun h => ((extra_mem ho c).1 h).2 hc), if_pos hc]
  · rw [if_neg hc]
    split
    · rfl
    · next h =>
      rw [extra_mem ho] at h
      rw [val_no_col (fun hb => h ⟨hb, hc⟩)]

/-- **C117** The columns of a merged table are those of the tables, once each, first those of the earlier table, in their order. -/
theorem C117_columns (order : List Label → List Label) (ho : ListsSet order) (a b : Table V) (ha : WholeTable a) (hb : WholeTable b) :
    WholeTable (a.merge order b) ∧ a.cols.map (·.1) <+: (a.merge order b).cols.map (·.1) ∧
    ∀ c, c ∈ (a.merge order b).cols.map (·.1) ↔ c ∈ a.cols.map (·.1) ∨ c ∈ b.cols.map (·.1) := by
  have key : WholeTable (a.merge order b) ∧ dkeys (a.merge order b).cols =
      dkeys a.cols ++ order ((dkeys b.cols).filter (fun c => !(dkeys a.cols).contains c)) := by
    have hd : ∀ c ∈ order ((dkeys b.cols).filter (fun c => !(dkeys a.cols).contains c)), c ∈ dkeys b.cols ∧ c ∉ dkeys (a.update b).cols := by
      intro c hc; rw [update_keys]; exact (extra_mem ho c).1 hc
    by_cases hr : a.rows = []
    · obtain ⟨-, h2, h3, -⟩ := setColumns_empty hb _ (a.update b) (update_rect ha) hr (extra_nodup ho hb) hd
      rw [update_keys] at h2
      exact ⟨h3, h2⟩
    · obtain ⟨-, h2, h3, -⟩ := setColumns_spec (b := b) _ (a.update b) (update_rect ha) hr (extra_nodup ho hb) hd
      rw [update_keys] at h2
      exact ⟨h3, h2⟩
  refine ⟨key.1, ?_, ?_⟩
  · have e := key.2; unfold dkeys at e; rw [e]; exact List.prefix_append _ _
  · intro c
    show c ∈ dkeys _ ↔ c ∈ dkeys _ ∨ c ∈ dkeys _
    rw [key.2, List.mem_append, extra_mem ho]
    constructor
    · rintro (h | h)
      · exact .inl h
      · exact .inr h.1
    · rintro (h | h)
      · exact .inl h
      · by_cases hc : c ∈ dkeys a.cols
        · exact .inl hc
        · exact .inr ⟨h, hc⟩

/-- **C117**, for tables of which the later one has no new rows: a merged table holds the cells of the later table, and those of the
earlier one that the later one misses. -/
theorem C117_cells_partial (order : List Label → List Label) (ho : ListsSet order) (a b : Table V) (ha : WholeTable a)
    (hb : WholeTable b) (hr : a.rows ≠ []) (hsub : ∀ r ∈ b.rows, r ∈ a.rows) :
    (a.merge order b).rows = a.rows ∧
    ∀ r c v, CellAt (a.merge order b) r c v ↔ CellAt b r c v ∨ (CellAt a r c v ∧ ∀ w, ¬ CellAt b r c w) := by
  obtain ⟨h1, h2, h3⟩ := merge_rows ho ha hb hr
  refine ⟨h1, fun r c v => ?_⟩
  simp only [cell_iff h2, cell_iff ha, cell_iff hb]
  by_cases hrr : r ∈ a.rows
  · rw [h3 r c hrr]
    cases hv : val b r c with
    | none => simp
    | some w => simp
  · rw [val_no_row (by rw [h1]; exact hrr), val_no_row (t := b) (fun h => hrr (hsub r h)), val_no_row hrr]; simp

/-- **C117** Also if the later table has new rows, this holds of the rows of the earlier one. -/
theorem C117_rows_partial (order : List Label → List Label) (ho : ListsSet order) (a b : Table V) (ha : WholeTable a)
    (hb : WholeTable b) (r : Label) (hr : r ∈ a.rows) (c : Label) (v : V) :
    CellAt (a.merge order b) r c v ↔ CellAt b r c v ∨ (CellAt a r c v ∧ ∀ w, ¬ CellAt b r c w) := by
  obtain ⟨h1, h2, h3⟩ := merge_rows ho ha hb (by intro e; rw [e] at hr; simp at hr)
  simp only [cell_iff h2, cell_iff ha, cell_iff hb, h3 r c hr]
  cases hv : val b r c with
  | none => simp
  | some w => simp

private theorem rect_empty : WholeTable (Table.empty (V := V)) :=
  ⟨by simp [Table.empty], by simp [Table.empty], by simp [Table.empty]⟩

private theorem merge_last (order : List Label → List Label) (ho : ListsSet order) : ∀ (ts : List (Table V)) (m : Table V),
    WholeTable m → m.rows ≠ [] → (∀ t ∈ ts, WholeTable t ∧ ∀ r ∈ t.rows, r ∈ m.rows) →
    ∃ t, Table.mergeAll order (some m) ts = some t ∧ WholeTable t ∧ t.rows = m.rows ∧
      ∀ r c v, CellAt t r c v ↔ LastCell (m :: ts) r c v := by
  intro ts
  induction ts with
  | nil =>
    intro m hm _ _
    refine ⟨m, rfl, hm, rfl, fun r c v => ⟨fun h => .here _ _ _ _ _ h (by simp), fun h => ?_⟩⟩
    cases h with
    | here _ _ _ _ _ h _ => exact h
    | later _ _ _ _ _ h => cases h
  | cons u ts ih =>
    intro m hm hr hts
    obtain ⟨hu, hsub⟩ := hts u (by simp)
    obtain ⟨h1, h2⟩ := C117_cells_partial order ho m u hm hu hr hsub
    obtain ⟨t, e1, e2, e3, e4⟩ := ih (m.merge order u) (C117_columns order ho m u hm hu).1 (by rw [h1]; exact hr)
      (fun t ht => ⟨(hts t (by simp [ht])).1, by rw [h1]; exact (hts t (by simp [ht])).2⟩)
    refine ⟨t, e1, e2, by rw [e3, h1], fun r c v => ?_⟩
    rw [e4 r c v]
    constructor
    · intro h
      cases h with
      | here _ _ _ _ _ h hno =>
        rcases (h2 r c v).1 h with h | ⟨h, hn⟩
        · exact .later _ _ _ _ _ (.here _ _ _ _ _ h hno)
        · refine .here _ _ _ _ _ h ?_
          intro w hw
          rcases List.mem_cons.1 hw with rfl | hw
          · exact hn
          · exact hno w hw
      | later _ _ _ _ _ h => exact .later _ _ _ _ _ (.later _ _ _ _ _ h)
    · intro h
      cases h with
      | here _ _ _ _ _ h hno =>
        exact .here _ _ _ _ _ ((h2 r c v).2 (.inr ⟨h, hno u (by simp)⟩)) (fun w hw => hno w (by simp [hw]))
      | later _ _ _ _ _ h =>
        cases h with
        | here _ _ _ _ _ h hno => exact .here _ _ _ _ _ ((h2 r c v).2 (.inl h)) hno
        | later _ _ _ _ _ h => exact .later _ _ _ _ _ h

/-- **C117**, for any number of submodels, of which the first one has columns and all the rows of the others: the last one wins, cell by
cell, and all rows are kept. -/
theorem C117_last_partial (order : List Label → List Label) (ho : ListsSet order) (t : Table V) (ts : List (Table V))
    (h : ∀ u ∈ t :: ts, WholeTable u) (hr : t.rows ≠ []) (hc : t.cols ≠ []) (hsub : ∀ u ∈ ts, ∀ r ∈ u.rows, r ∈ t.rows) :
    ∃ m, Table.mergeAll order none (t :: ts) = some m ∧ WholeTable m ∧ m.rows = t.rows ∧
      ∀ r c v, CellAt m r c v ↔ LastCell (t :: ts) r c v := by
  have ht := h t (by simp)
  obtain ⟨h1, h2⟩ := merge_empty ho rect_empty ht (rfl : (Table.empty (V := V)).rows = [])
  have hrows : ((Table.empty (V := V)).merge order t).rows = t.rows := by
    obtain ⟨k1, -⟩ := setColumns_empty ht (order ((dkeys t.cols).filter (fun c => !(dkeys (Table.empty (V := V)).cols).contains c)))
      (Table.empty.update t) (update_rect rect_empty) rfl (extra_nodup ho ht) (by
        intro c hc; rw [update_keys]; exact (extra_mem ho c).1 hc)
    unfold Table.merge
    rw [k1, if_neg]
    intro e
    obtain ⟨c, hm⟩ := List.exists_mem_of_ne_nil _ hc
    have := (extra_mem (a := Table.empty) (b := t) ho c.1).2 ⟨List.mem_map.2 ⟨c, hm, rfl⟩, by simp [Table.empty, dkeys]⟩
    rw [e] at this
    simp at this
  have hcell : ∀ r c v, CellAt ((Table.empty (V := V)).merge order t) r c v ↔ CellAt t r c v := by
    intro r c v
    rw [cell_iff h1, cell_iff ht, h2, if_neg (by simp [Table.empty, dkeys])]
  obtain ⟨m, e1, e2, e3, e4⟩ := merge_last order ho ts _ h1 (by rw [hrows]; exact hr)
    (fun u hu => ⟨h u (by simp [hu]), by rw [hrows]; exact hsub u hu⟩)
  refine ⟨m, e1, e2, by rw [e3, hrows], fun r c v => ?_⟩
  rw [e4 r c v]
  constructor
  · intro hl
    cases hl with
    | here _ _ _ _ _ hh hn => exact .here _ _ _ _ _ ((hcell r c v).1 hh) hn
    | later _ _ _ _ _ hh => exact .later _ _ _ _ _ hh
  · intro hl
    cases hl with
    | here _ _ _ _ _ hh hn => exact .here _ _ _ _ _ ((hcell r c v).2 hh) hn
    | later _ _ _ _ _ hh => exact .later _ _ _ _ _ hh

/-- Rows `x` and `y`, columns `p` and `q`. -/
def tableA : Table Nat := ⟨[.name ['x'], .name ['y']], [(.name ['p'], [some 1, some 2]), (.name ['q'], [none, some 3])]⟩
/-- Row `y`, columns `r` and `p`. -/
def tableB : Table Nat := ⟨[.name ['y']], [(.name ['r'], [some 9]), (.name ['p'], [some 7])]⟩
/-- Rows `y` and `z`, column `p`. -/
def tableC : Table Nat := ⟨[.name ['y'], .name ['z']], [(.name ['p'], [some 7, some 8])]⟩

/-- C117 fails: rows that only the later table has are lost; so are the values of a later table for columns of an earlier table without
rows. -/
theorem C117_refuted (order : List Label → List Label) (ho : ListsSet order) :
    WholeTable tableA ∧ WholeTable tableC ∧ CellAt tableC (.name ['z']) (.name ['p']) 8 ∧
    (∀ c v, ¬ CellAt (tableA.merge order tableC) (.name ['z']) c v) ∧
    ∀ a b : Table V, WholeTable a → WholeTable b → a.rows = [] → ∀ c ∈ a.cols.map (·.1), ∀ r v, ¬ CellAt (a.merge order b) r c v := by
  have hA : WholeTable tableA := ⟨by decide, by decide, by decide⟩
  have hC : WholeTable tableC := ⟨by decide, by decide, by decide⟩
  refine ⟨hA, hC, ⟨1, [some 7, some 8], rfl, by decide, rfl⟩, ?_, ?_⟩
  · obtain ⟨h1, h2, -⟩ := merge_rows ho hA hC (by decide)
    intro c v
    rw [cell_iff h2, val_no_row (by rw [h1]; decide)]
    simp
  · intro a b ha hb hr c hc r v
    obtain ⟨h1, h2⟩ := merge_empty ho ha hb hr
    rw [cell_iff h1, h2, if_pos (show c ∈ dkeys a.cols from hc)]
    simp

/-- The hypotheses are met, and what comes out. -/
example : WholeTable tableA ∧ WholeTable tableB ∧ tableA.rows ≠ [] ∧ (∀ r ∈ tableB.rows, r ∈ tableA.rows) ∧ ListsSet id ∧
    (tableA.merge id tableB).cols =
      [(.name ['p'], [some 1, some 7]), (.name ['q'], [none, some 3]), (.name ['r'], [none, some 9])] :=
  ⟨⟨by decide, by decide, by decide⟩, ⟨by decide, by decide, by decide⟩, by decide, by decide, fun _ => .refl _, by decide⟩

end Props
