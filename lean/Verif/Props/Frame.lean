import Verif.Spec.Frame
/-
C93: what the `df` filter makes a `DataFrame` of.
-/
namespace Props
open Py Model Spec

private theorem blank_iff (v : Doc) : blankCell v = true ↔ BlankCell v := by
  unfold BlankCell
  cases v with
  | str s => cases s <;> simp [blankCell]
  | _ => simp [blankCell]

private theorem cellOf_cons (row : List Doc) (rows : List (List Doc)) (k c : Nat) :
    cellOf (row :: rows) k c = match k with | 0 => row[c]? | k + 1 => cellOf rows k c := by
  cases k <;> rfl

private theorem fillCol_ok (c : Nat) (rows : List (List Doc)) : ∀ (last : Doc), (∀ row ∈ rows, c < row.length) →
    (fillCol c last rows).2 = .ok () ∧
    (∀ k : Nat, ((fillCol c last rows).1[k]?).map List.length = (rows[k]?).map List.length) ∧
    (∀ k c', c' ≠ c → cellOf (fillCol c last rows).1 k c' = cellOf rows k c') ∧
    (∀ k v, cellOf (fillCol c last rows).1 k c = some v →
      (∃ j, j ≤ k ∧ cellOf rows j c = some v ∧ ¬ BlankCell v ∧ ∀ i, j < i → i ≤ k → ∃ b, cellOf rows i c = some b ∧ BlankCell b) ∨
      (v = last ∧ ∀ i, i ≤ k → ∃ b, cellOf rows i c = some b ∧ BlankCell b)) := by
  induction rows with
  | nil => intro last _; simp [fillCol, cellOf]
  | cons row rows ih =>
    intro last hl
    have hc : c < row.length := hl row (by simp)
    have hg : row[c]? = some row[c] := List.getElem?_eq_getElem hc
    have hl' : ∀ r ∈ rows, c < r.length := fun r hr => hl r (by simp [hr])
    by_cases hb : blankCell row[c] = true
    · have e : fillCol c last (row :: rows) = (row.set c last :: (fillCol c last rows).1, (fillCol c last rows).2) := by
        simp only [fillCol, hg, hb, if_true]
      obtain ⟨i1, i2, i3, i4⟩ := ih last hl'
      rw [e]
      refine ⟨i1, ?_, ?_, ?_⟩
      · intro k; cases k with
        | zero => simp
        | succ k => simpa using i2 k
      · intro k c' hne
        simp only [cellOf_cons]
        cases k with
        | zero => simp [List.getElem?_set_ne (Ne.symm hne)]
        | succ k => exact i3 k c' hne
      · intro k v hv
        rw [cellOf_cons] at hv
        cases k with
        | zero =>
          simp only [List.getElem?_set_self hc, Option.some.injEq] at hv
          right
          refine ⟨hv.symm, ?_⟩
          intro i hi
          obtain rfl : i = 0 := by omega
          exact ⟨_, hg, (blank_iff _).1 hb⟩
        | succ k =>
          rcases i4 k v hv with ⟨j, h1, h2, h3, h4⟩ | ⟨h1, h2⟩
          · left
            refine ⟨j + 1, by omega, h2, h3, ?_⟩
            intro i hi hi'
            cases i with
            | zero => omega
            | succ i => exact h4 i (by omega) (by omega)
          · right
            refine ⟨h1, ?_⟩
            intro i hi
            cases i with
            | zero => exact ⟨_, hg, (blank_iff _).1 hb⟩
            | succ i => exact h2 i (by omega)
    · have e : fillCol c last (row :: rows) = (row :: (fillCol c row[c] rows).1, (fillCol c row[c] rows).2) := by
        simp only [fillCol, hg, hb, Bool.false_eq_true, if_false]
      obtain ⟨i1, i2, i3, i4⟩ := ih row[c] hl'
      rw [e]
      refine ⟨i1, ?_, ?_, ?_⟩
      · intro k; cases k with
        | zero => simp
        | succ k => simpa using i2 k
      · intro k c' hne
        simp only [cellOf_cons]
        cases k with
        | zero => rfl
        | succ k => exact i3 k c' hne
      · intro k v hv
        rw [cellOf_cons] at hv
        cases k with
        | zero =>
          have hv : row[c]? = some v := hv
          left
          refine ⟨0, Nat.le_refl _, hv, ?_, by omega⟩
          rw [hg] at hv
          cases hv
          exact fun h => hb ((blank_iff _).2 h)
        | succ k =>
          left
          rcases i4 k v hv with ⟨j, h1, h2, h3, h4⟩ | ⟨h1, h2⟩
          · refine ⟨j + 1, by omega, h2, h3, ?_⟩
            intro i hi hi'
            cases i with
            | zero => omega
            | succ i => exact h4 i (by omega) (by omega)
          · refine ⟨0, by omega, by rw [h1]; exact hg, by rw [h1]; exact fun h => hb ((blank_iff _).2 h), ?_⟩
            intro i hi hi'
            cases i with
            | zero => omega
            | succ i => exact h2 i (by omega)

/-- Two tables of the same shape. -/
private def SameSize (a b : List (List Doc)) : Prop := ∀ k : Nat, (a[k]?).map List.length = (b[k]?).map List.length

private theorem sameSize_length {a b : List (List Doc)} (h : SameSize a b) : a.length = b.length := by
  apply Nat.le_antisymm
  · apply Nat.le_of_not_lt; intro hlt
    have := h b.length
    rw [List.getElem?_eq_getElem hlt] at this
    simp at this
  · apply Nat.le_of_not_lt; intro hlt
    have := h a.length
    rw [List.getElem?_eq_getElem hlt] at this
    simp at this

private theorem cellOf_split (a b : List (List Doc)) (n : Nat) (ha : a.length = n) (r c : Nat) :
    cellOf (a ++ b) r c = if r < n then cellOf a r c else cellOf b (r - n) c := by
  unfold cellOf
  subst ha
  split
  · rw [List.getElem?_append_left (by assumption)]
  · rw [List.getElem?_append_right (by omega)]

private theorem oneCol {off c : Nat} {data : List (List Doc)} {row : List Doc} {last : Doc} (h1 : data[off]? = some row)
    (h2 : row[c]? = some last) (hw : ∀ r row, off ≤ r → data[r]? = some row → c < row.length) :
    (fillCol c last (data.drop (off + 1))).2 = .ok () ∧
    SameSize (data.take (off + 1) ++ (fillCol c last (data.drop (off + 1))).1) data ∧
    (∀ r c', c' ≠ c ∨ r < off → cellOf (data.take (off + 1) ++ (fillCol c last (data.drop (off + 1))).1) r c' = cellOf data r c') ∧
    (∀ r v, off ≤ r → cellOf (data.take (off + 1) ++ (fillCol c last (data.drop (off + 1))).1) r c = some v →
      StandsFor data off c r v) := by
  have hlt : off < data.length := by
    apply Nat.lt_of_not_le; intro hle
    rw [List.getElem?_eq_none hle] at h1; cases h1
  have htl : (data.take (off + 1)).length = off + 1 := by rw [List.length_take]; omega
  have hd : ∀ r c', cellOf data r c' = if r < off + 1 then cellOf (data.take (off + 1)) r c' else cellOf (data.drop (off + 1)) (r - (off + 1)) c' := by
    intro r c'
    rw [← cellOf_split _ _ _ htl, List.take_append_drop]
  obtain ⟨i1, i2, i3, i4⟩ := fillCol_ok c (data.drop (off + 1)) last (by
    intro rw' hr
    obtain ⟨k, hk⟩ := List.mem_iff_getElem?.1 hr
    rw [List.getElem?_drop] at hk
    exact hw _ _ (by omega) hk)
  have hlast : cellOf data off c = some last := by unfold cellOf; rw [h1]; exact h2
  refine ⟨i1, ?_, ?_, ?_⟩
  · intro k
    by_cases hk : k < off + 1
    · rw [List.getElem?_append_left (by omega), List.getElem?_take_of_lt hk]
    · rw [List.getElem?_append_right (by omega), htl]
      have := i2 (k - (off + 1))
      rw [this, List.getElem?_drop]
      congr 2; omega
  · intro r c' hc
    rw [cellOf_split _ _ _ htl, hd]
    by_cases hr : r < off + 1
    · simp only [hr, if_true]
    · simp only [hr, if_false]
      exact i3 _ _ (hc.resolve_right (by omega))
  · intro r v hr hv
    rw [cellOf_split _ _ _ htl] at hv
    by_cases hr' : r < off + 1
    · simp only [hr', if_true] at hv
      obtain rfl : r = off := by omega
      refine ⟨r, Nat.le_refl _, Nat.le_refl _, ?_, by omega, .inl rfl⟩
      rw [hd]; simp only [hr', if_true]; exact hv
    · simp only [hr', if_false] at hv
      rcases i4 _ _ hv with ⟨j, j1, j2, j3, j4⟩ | ⟨j1, j2⟩
      · refine ⟨off + 1 + j, by omega, by omega, ?_, ?_, .inr j3⟩
        · rw [hd, if_neg (by omega)]
          have : off + 1 + j - (off + 1) = j := by omega
          rw [this]; exact j2
        · intro k hk hk'
          rw [hd, if_neg (by omega)]
          exact j4 _ (by omega) (by omega)
      · refine ⟨off, Nat.le_refl _, hr, by rw [j1]; exact hlast, ?_, .inl rfl⟩
        intro k hk hk'
        rw [hd, if_neg (by omega)]
        exact j2 _ (by omega)

private theorem standsFor_congr {d d' : List (List Doc)} {off c r : Nat} {v : Doc} (h : ∀ k, cellOf d k c = cellOf d' k c)
    (hs : StandsFor d off c r v) : StandsFor d' off c r v := by
  obtain ⟨r', a1, a2, a3, a4, a5⟩ := hs
  refine ⟨r', a1, a2, by rw [← h]; exact a3, ?_, a5⟩
  intro k hk hk'
  rw [← h]; exact a4 k hk hk'

private theorem fillDown_ok (off : Nat) (cs : List Nat) : ∀ (data : List (List Doc)), cs.Nodup →
    (∀ c ∈ cs, ∀ r row, off ≤ r → data[r]? = some row → c < row.length) →
    (fillDown off cs data).2 = .ok () ∧ SameSize (fillDown off cs data).1 data ∧
    (∀ r c, c ∉ cs ∨ r < off → cellOf (fillDown off cs data).1 r c = cellOf data r c) ∧
    (∀ r c v, c ∈ cs → off ≤ r → cellOf (fillDown off cs data).1 r c = some v → StandsFor data off c r v) := by
  induction cs with
  | nil => intro data _ _; exact ⟨rfl, fun _ => rfl, fun _ _ _ => rfl, by intro r c v h; cases h⟩
  | cons c cs ih =>
    intro data hn hw
    obtain ⟨hc, hn'⟩ := List.nodup_cons.1 hn
    cases h1 : data[off]? with
    | none =>
      have e : fillDown off (c :: cs) data = (data, .ok ()) := by simp only [fillDown, h1]
      rw [e]
      refine ⟨rfl, fun _ => rfl, fun _ _ _ => rfl, ?_⟩
      intro r c' v _ hr hv
      have hle : data.length ≤ off := by
        apply Nat.le_of_not_lt; intro hlt; rw [List.getElem?_eq_getElem hlt] at h1; cases h1
      simp only [cellOf, List.getElem?_eq_none (show data.length ≤ r by omega)] at hv
      cases hv
    | some row =>
      have hcl := hw c (by simp) off row (Nat.le_refl _) h1
      have h2 : row[c]? = some row[c] := List.getElem?_eq_getElem hcl
      obtain ⟨i1, i2, i3, i4⟩ := oneCol h1 h2 (hw c (by simp))
      generalize hd : data.take (off + 1) ++ (fillCol c row[c] (data.drop (off + 1))).1 = data1 at i2 i3 i4
      have e : fillDown off (c :: cs) data = fillDown off cs data1 := by
        simp only [fillDown, h1, h2, i1, hd]
      rw [e]
      have hw' : ∀ c' ∈ cs, ∀ r row, off ≤ r → data1[r]? = some row → c' < row.length := by
        intro c' hc' r rw' hr hd1
        have hs := i2 r
        rw [hd1] at hs
        cases hd0 : data[r]? with
        | none => rw [hd0] at hs; simp at hs
        | some r0 =>
          rw [hd0] at hs
          simp only [Option.map_some, Option.some.injEq] at hs
          rw [hs]
          exact hw c' (by simp [hc']) r r0 hr hd0
      obtain ⟨j1, j2, j3, j4⟩ := ih data1 hn' hw'
      refine ⟨j1, fun k => (j2 k).trans (i2 k), ?_, ?_⟩
      · intro r c' h
        simp only [List.mem_cons, not_or] at h
        rw [j3 r c' (h.imp_left And.right), i3 r c' (h.imp_left And.left)]
      · intro r c' v hm hr hv
        by_cases he : c' = c
        · subst he
          rw [j3 r c' (.inl hc)] at hv
          exact i4 r v hr hv
        · have hm' : c' ∈ cs := (List.mem_cons.1 hm).resolve_left he
          exact standsFor_congr (fun k => i3 k c' (.inl he)) (j4 r c' v hm' hr hv)

private theorem fillHeaders_ok (L : FrameLib) (idx : IndexCol) (hp : ∀ row, ∃ q, L.popName row idx = .ok q) (ns : List Nat) :
    ∀ (ctl : List Bool) (data : List (List Doc)) (names : List Doc), (∀ n ∈ ns, n < data.length) →
    ∃ names', (fillHeaders L idx .none ns ctl data names).2 = .ok names' ∧
      names'.length = names.length + (if idx = .none then 0 else ns.length) ∧
      (fillHeaders L idx .none ns ctl data names).1.length = data.length ∧
      ∀ r : Nat, r ∉ ns → (fillHeaders L idx .none ns ctl data names).1[r]? = data[r]? := by
  induction ns with
  | nil => intro ctl data names _; exact ⟨names, rfl, by simp, rfl, fun _ _ => rfl⟩
  | cons n ns ih =>
    intro ctl data names hn
    have hlt := hn n (by simp)
    have hg : data[n]? = some data[n] := List.getElem?_eq_getElem hlt
    have step : ∀ (row : List Doc) (ctl' : List Bool) (nm : List Doc), (∃ names', (fillHeaders L idx .none ns ctl' (data.set n row) nm).2 = .ok names' ∧
        names'.length = nm.length + (if idx = .none then 0 else ns.length) ∧
        (fillHeaders L idx .none ns ctl' (data.set n row) nm).1.length = data.length ∧
        ∀ r : Nat, r ∉ n :: ns → (fillHeaders L idx .none ns ctl' (data.set n row) nm).1[r]? = data[r]?) := by
      intro row ctl' nm
      obtain ⟨names', a1, a2, a3, a4⟩ := ih ctl' (data.set n row) nm (by intro m hm; rw [List.length_set]; exact hn m (by simp [hm]))
      refine ⟨names', a1, a2, by rw [a3, List.length_set], ?_⟩
      intro r hr
      simp only [List.mem_cons, not_or] at hr
      rw [a4 r hr.2, List.getElem?_set_ne (Ne.symm hr.1)]
    by_cases hi : idx = .none
    · have e : fillHeaders L idx .none (n :: ns) ctl data names =
          fillHeaders L idx .none ns (L.fillHeader data[n] ctl).2 (data.set n (L.fillHeader data[n] ctl).1) names := by
        simp only [fillHeaders, SkipRows.shift, Nat.add_zero, hg, hi, if_true]
      rw [e]
      obtain ⟨names', a1, a2, a3⟩ := step (L.fillHeader data[n] ctl).1 (L.fillHeader data[n] ctl).2 names
      exact ⟨names', a1, by rw [a2]; simp [hi], a3⟩
    · obtain ⟨⟨name, row'⟩, hq⟩ := hp (L.fillHeader data[n] ctl).1
      have e : fillHeaders L idx .none (n :: ns) ctl data names =
          fillHeaders L idx .none ns (L.fillHeader data[n] ctl).2 (data.set n row') (names ++ [name]) := by
        simp only [fillHeaders, SkipRows.shift, Nat.add_zero, hg, hi, if_false, hq]
      rw [e]
      obtain ⟨names', a1, a2, a3⟩ := step row' (L.fillHeader data[n] ctl).2 (names ++ [name])
      refine ⟨names', a1, ?_, a3⟩
      rw [a2]; simp [hi]; omega

private theorem made_congr {L : FrameLib} {idx : IndexCol} {data data' : List (List Doc)} {ns : List Nat} {ctl : List Bool}
    {made : List (List Doc)} {names : List Doc} (h : MadeHead L idx data ns ctl made names) (he : ∀ n ∈ ns, data'[n]? = data[n]?) :
    MadeHead L idx data' ns ctl made names := by
  induction h with
  | done ctl => exact .done ctl
  | plain n ns ctl ctl' row row' made names h1 h2 h3 _ ih =>
    exact .plain n ns ctl ctl' row row' made names h1 (by rw [he n (by simp), h2]) h3 (ih (fun m hm => he m (by simp [hm])))
  | named n ns ctl ctl' row row' row'' name made names h1 h2 h3 h4 _ ih =>
    exact .named n ns ctl ctl' row row' row'' name made names h1 (by rw [he n (by simp), h2]) h3 h4 (ih (fun m hm => he m (by simp [hm])))

private theorem fillHeaders_made (L : FrameLib) (idx : IndexCol) (hp : ∀ row, ∃ q, L.popName row idx = .ok q) (ns : List Nat) :
    ∀ (ctl : List Bool) (data : List (List Doc)) (names : List Doc), ns.Nodup → (∀ n ∈ ns, n < data.length) →
    ∃ made names', MadeHead L idx data ns ctl made names' ∧
      (fillHeaders L idx .none ns ctl data names).2 = .ok (names ++ names') ∧
      ∀ (k n : Nat), ns[k]? = some n → ∃ row, made[k]? = some row ∧ (fillHeaders L idx .none ns ctl data names).1[n]? = some row := by
  induction ns with
  | nil => intro ctl data names _ _; exact ⟨[], [], .done ctl, by simp [fillHeaders], by simp⟩
  | cons n ns ih =>
    intro ctl data names hnd hn
    obtain ⟨hnn, hnd'⟩ := List.nodup_cons.1 hnd
    have hlt : n < data.length := hn n (by simp)
    have hg : data[n]? = some data[n] := List.getElem?_eq_getElem hlt
    have hn' : ∀ m ∈ ns, m < data.length := fun m hm => hn m (by simp [hm])
    have hset : ∀ row : List Doc, ∀ m ∈ ns, data[m]? = (data.set n row)[m]? := by
      intro row m hm
      rw [List.getElem?_set_ne]
      rintro rfl; exact hnn hm
    have hkeep : ∀ (row : List Doc) (ctl' : List Bool) (nm : List Doc), (fillHeaders L idx .none ns ctl' (data.set n row) nm).1[n]? = some row := by
      intro row ctl' nm
      obtain ⟨_, _, _, _, a4⟩ := fillHeaders_ok L idx hp ns ctl' (data.set n row) nm (by intro m hm; rw [List.length_set]; exact hn' m hm)
      rw [a4 n hnn, List.getElem?_set_self hlt]
    by_cases hi : idx = .none
    · have e : fillHeaders L idx .none (n :: ns) ctl data names =
          fillHeaders L idx .none ns (L.fillHeader data[n] ctl).2 (data.set n (L.fillHeader data[n] ctl).1) names := by
        simp only [fillHeaders, SkipRows.shift, Nat.add_zero, hg, hi, if_true]
      rw [e]
      obtain ⟨made, names', m1, m2, m3⟩ := ih (L.fillHeader data[n] ctl).2 (data.set n (L.fillHeader data[n] ctl).1) names hnd'
        (by intro m hm; rw [List.length_set]; exact hn' m hm)
      refine ⟨_ :: made, names', .plain n ns ctl _ data[n] _ made names' hi hg rfl (made_congr m1 (hset _)), m2, ?_⟩
      intro k x hk
      cases k with
      | zero => simp at hk; subst hk; exact ⟨_, rfl, hkeep _ _ _⟩
      | succ k => exact m3 k x hk
    · obtain ⟨⟨name, row'⟩, hq⟩ := hp (L.fillHeader data[n] ctl).1
      have e : fillHeaders L idx .none (n :: ns) ctl data names =
          fillHeaders L idx .none ns (L.fillHeader data[n] ctl).2 (data.set n row') (names ++ [name]) := by
        simp only [fillHeaders, SkipRows.shift, Nat.add_zero, hg, hi, if_false, hq]
      rw [e]
      obtain ⟨made, names', m1, m2, m3⟩ := ih (L.fillHeader data[n] ctl).2 (data.set n row') (names ++ [name]) hnd'
        (by intro m hm; rw [List.length_set]; exact hn' m hm)
      refine ⟨_ :: made, name :: names', .named n ns ctl _ data[n] _ row' name made names' hi hg rfl hq (made_congr m1 (hset _)), ?_, ?_⟩
      · rw [m2]; simp
      · intro k x hk
        cases k with
        | zero => simp at hk; subst hk; exact ⟨_, rfl, hkeep _ _ _⟩
        | succ k => exact m3 k x hk

private theorem max_below (n : Nat) (ns : List Nat) : Below (n :: ns) (1 + ns.foldl max n) := by
  have key : ∀ (ns : List Nat) (n : Nat), n ≤ ns.foldl max n ∧ (∀ m ∈ ns, m ≤ ns.foldl max n) ∧
      (ns.foldl max n = n ∨ ns.foldl max n ∈ ns) := by
    intro ns
    induction ns with
    | nil => intro n; simp
    | cons a ns ih =>
      intro n
      obtain ⟨h1, h2, h3⟩ := ih (max n a)
      simp only [List.foldl_cons, List.mem_cons]
      refine ⟨by omega, ?_, ?_⟩
      · rintro m (rfl | hm)
        · omega
        · exact h2 m hm
      · rcases h3 with h3 | h3
        · rw [h3]
          rcases Nat.le_total n a with h | h
          · right; left; omega
          · left; omega
        · right; right; exact h3
  obtain ⟨h1, h2, h3⟩ := key ns n
  refine ⟨?_, ?_⟩
  · intro m hm
    rcases List.mem_cons.1 hm with rfl | hm
    · omega
    · have := h2 m hm; omega
  · rcases h3 with h3 | h3
    · exact ⟨n, by simp, by omega⟩
    · exact ⟨_, List.mem_cons_of_mem _ h3, by omega⟩

private theorem offset_below {h : Header} {rows : List Nat} {off : Nat} (hin : HeaderIn h rows) (hb : Below rows off) :
    offsetOf h = .ok off := by
  obtain ⟨b1, n, b2, b3⟩ := hb
  cases hin with
  | none => cases b2
  | row m => simp only [List.mem_singleton] at b2; subst b2; simp only [offsetOf, Except.ok.injEq]; omega
  | rows =>
    cases rows with
    | nil => cases b2
    | cons m ms =>
      obtain ⟨c1, k, c2, c3⟩ := max_below m ms
      simp only [offsetOf, maxOf, Except.ok.injEq]
      have := b1 k c2
      have := c1 n b2
      omega

private theorem unwrap_in {h : Header} {rows : List Nat} (hin : HeaderIn h rows) : HeaderIn (unwrapHeader h) rows := by
  cases hin with
  | none => exact .none
  | row n => exact .row n
  | rows =>
    rcases rows with _ | ⟨a, _ | ⟨b, t⟩⟩
    · exact .rows []
    · exact .row a
    · exact .rows _

private theorem unwrap_many {h : Header} {rows : List Nat} (hin : HeaderIn h rows) (hq : unwrapHeader h = .rows rows) :
    rows.length ≠ 1 := by
  intro h1
  cases hin with
  | none => cases hq
  | row n => cases hq
  | rows =>
    rcases rows with _ | ⟨a, _ | ⟨b, t⟩⟩
    · cases h1
    · cases hq
    · simp at h1

private theorem table_of (data : List (List Doc)) : tableOf (asDoc data) = some data := by
  simp only [tableOf, asDoc]
  induction data with
  | nil => rfl
  | cons r t ih =>
    simp only [List.map_cons, List.mapM_cons]
    rw [ih]; rfl

private theorem shown_noNone (v : Doc) : Shown v (noNone v) := by
  unfold Shown
  cases v <;> simp [noNone]

private theorem use_ok {u : UseCols} (hu : ∀ s, u ≠ .letters s) : ∃ w, convertUseCols u = .ok w ∧ ColsAsked u w := by
  cases u with
  | none => exact ⟨_, rfl, .none⟩
  | upTo n => exact ⟨_, rfl, .upTo n _ (by intro c; simp only [List.mem_range]; omega) List.nodup_range⟩
  | letters s => exact absurd rfl (hu s)
  | those ns => exact ⟨_, rfl, .those ns⟩

/-- What becomes of the output of the parser: it is the values of the lasso; with a header of many rows and an
index, its columns get the names found in its rows. -/
structure Outcome {S : Type} (L : FrameLib) (a : DfArgs) (l : Lasso S) (head : List Nat) (call : ParserCall) (names : List Doc)
    (res : Except PyErr (FRes S)) : Prop where
  failed : ∀ e, L.parse call = .error (.other e) → res = .error e
  noData : L.parse call = .error .emptyData → res = .ok (.lasso { l with values := L.emptyFrame })
  plain : ∀ f, head.length ≤ 1 ∨ a.indexCol = .none ∨ (a.squeeze = true ∧ L.isFrame f = false) → L.parse call = .ok f →
    res = .ok (.lasso { l with values := f })
  named : ∀ f, 1 < head.length → a.indexCol ≠ .none → (a.squeeze = false ∨ L.isFrame f = true) → L.parse call = .ok f →
    (∀ g, L.setNames f names = .ok g → res = .ok (.lasso { l with values := g })) ∧ ∀ e, L.setNames f names = .error e → res = .error e

/-- C93 (partial: without `skiprows`, see `C93_skiprows_refuted`; columns given by number, see
`C93_letters_refuted`; and of captures that are not empty, see `C93_empty_refuted`). The table that the parser
of *pandas* is given has as many rows and cells as the captured one. Its cells are the captured ones, with `None`
as an empty text; blank cells in the columns of a many-column index, below the header, have the value that
stands above them. Rows of a header of many rows are as *pandas* makes them. All other arguments are passed on. -/
theorem C93_cells_partial {S : Type} (L : FrameLib) (a : DfArgs) (l : Lasso S) (data : List (List Doc)) (w : Nat) (head : List Nat)
    (hv : l.values = asDoc data) (hne : data ≠ []) (hw : Rectangular data w)
    (hh : HeaderIn a.header head) (hu : ∀ s, a.useCols ≠ .letters s) (hs : a.skipRows = .none)
    (hk : ∀ k ∈ dkeys a.kwds, k ∉ ["skip_footer".toList, "chunksize".toList, "date_parser".toList, "converted".toList])
    (hi : ∀ cs, a.indexCol = .cols cs → cs.Nodup ∧ (∀ c ∈ cs, c < w) ∧ head ≠ [])
    (hn : head.length ≠ 1 → ∀ n ∈ head, n < data.length) (hp : ∀ row, ∃ q, L.popName row a.indexCol = .ok q) :
    ∃ call names, Outcome L a l head call names (dfFilter L a l).2 ∧
      (1 < head.length → head.Nodup → ∃ made, MadeHead L a.indexCol data head ((data.headD []).map (fun _ => true)) made names ∧
        ∀ k n : Nat, head[k]? = some n → ∃ row out, made[k]? = some row ∧ call.rows[n]? = some out ∧ ShownRow row out) ∧
      call.rows.length = data.length ∧ HeaderIn call.header head ∧ call.indexCol = a.indexCol ∧ ColsAsked a.useCols call.useCols ∧
      call.passed = a.passed ∧ call.kwds = a.kwds ∧ call.squeeze = a.squeeze ∧ call.skipRows = .none ∧
      (call.hasIndexNames = true ↔ 1 < head.length) ∧
      ∀ r, (1 < head.length → r ∉ head) →
        (∀ c, cellOf call.rows r c = none ↔ cellOf data r c = none) ∧
        ∀ c v, cellOf call.rows r c = some v →
          (∃ off, ManyIndex a.indexCol c ∧ Below head off ∧ off ≤ r ∧ ∃ u, StandsFor data off c r u ∧ Shown u v) ∨
          (¬ (ManyIndex a.indexCol c ∧ ∃ off, Below head off ∧ off ≤ r) ∧ ∃ u, cellOf data r c = some u ∧ Shown u v) := by
  obtain ⟨use, hu1, hu2⟩ := use_ok hu
  have hin := unwrap_in hh
  -- the header
  have hhead : ∃ names, (fillHead L (unwrapHeader a.header) a.indexCol a.skipRows data).2 = .ok names ∧
      (head.length ≤ 1 ∨ a.indexCol = .none → names = []) ∧ (1 < head.length → a.indexCol ≠ .none → names.length = head.length) ∧
      (fillHead L (unwrapHeader a.header) a.indexCol a.skipRows data).1.length = data.length ∧
      (∀ r : Nat, (1 < head.length → r ∉ head) → (fillHead L (unwrapHeader a.header) a.indexCol a.skipRows data).1[r]? = data[r]?) ∧
      (1 < head.length → head.Nodup → ∃ made, MadeHead L a.indexCol data head ((data.headD []).map (fun _ => true)) made names ∧
        ∀ k n : Nat, head[k]? = some n → ∃ row, made[k]? = some row ∧
          (fillHead L (unwrapHeader a.header) a.indexCol a.skipRows data).1[n]? = some row) := by
    rw [hs]
    generalize hq : unwrapHeader a.header = h at hin
    cases hin with
    | none => exact ⟨[], rfl, fun _ => rfl, fun h => absurd h (by simp), rfl, fun _ _ => rfl, fun h => absurd h (by simp)⟩
    | row n => exact ⟨[], rfl, fun _ => rfl, fun h => absurd h (by simp), rfl, fun _ _ => rfl, fun h => absurd h (by simp)⟩
    | rows =>
      have h1 : head.length ≠ 1 := unwrap_many hh hq
      obtain ⟨names, a1, a2, a3, a4⟩ := fillHeaders_ok L a.indexCol hp head ((data.headD []).map (fun _ => true)) data [] (hn h1)
      refine ⟨names, a1, ?_, ?_, a3, ?_, ?_⟩
      · intro hlt
        have h0 : names.length = 0 := by
          rw [a2]
          rcases hlt with hlt | hlt
          · have : head.length = 0 := by omega
            simp [this]
          · simp [hlt]
        exact List.length_eq_zero_iff.1 h0
      · intro _ hi'
        rw [a2]; simp [hi']
      · intro r hr
        refine a4 r ?_
        by_cases hlt : 1 < head.length
        · exact hr hlt
        · have : head = [] := List.length_eq_zero_iff.1 (by omega)
          simp [this]
      · intro _ hnd
        obtain ⟨made, names', m1, m2, m3⟩ :=
          fillHeaders_made L a.indexCol hp head ((data.headD []).map (fun _ => true)) data [] hnd (hn h1)
        rw [a1] at m2
        injection m2 with m2
        rw [List.nil_append] at m2
        subst m2
        exact ⟨made, m1, m3⟩
  obtain ⟨names, n1, n2, n2', n3, n4, n5⟩ := hhead
  generalize hd1 : fillHead L (unwrapHeader a.header) a.indexCol a.skipRows data = q at n1 n3 n4 n5
  have hcell : ∀ r : Nat, (1 < head.length → r ∉ head) → ∀ c, cellOf q.1 r c = cellOf data r c := by
    intro r hr c; unfold cellOf; rw [n4 r hr]
  -- the index
  have hidx : (fillIndex (unwrapHeader a.header) a.indexCol q.1).2 = .ok () ∧
      SameSize (fillIndex (unwrapHeader a.header) a.indexCol q.1).1 q.1 ∧
      (∀ r c, ¬ (ManyIndex a.indexCol c ∧ ∃ off, Below head off ∧ off ≤ r) →
        cellOf (fillIndex (unwrapHeader a.header) a.indexCol q.1).1 r c = cellOf q.1 r c) ∧
      (∀ r c off v, ManyIndex a.indexCol c → Below head off → off ≤ r →
        cellOf (fillIndex (unwrapHeader a.header) a.indexCol q.1).1 r c = some v → StandsFor q.1 off c r v) := by
    cases hx : a.indexCol with
    | none => exact ⟨rfl, fun _ => rfl, fun _ _ _ => rfl, by rintro r c off v ⟨cs, e, _⟩; cases e⟩
    | col n => exact ⟨rfl, fun _ => rfl, fun _ _ _ => rfl, by rintro r c off v ⟨cs, e, _⟩; cases e⟩
    | cols cs =>
      obtain ⟨i1, i2, i3⟩ := hi cs hx
      obtain ⟨off, hb⟩ : ∃ off, Below head off := by
        cases head with
        | nil => exact absurd rfl i3
        | cons n ns => exact ⟨_, max_below n ns⟩
      have huniq : ∀ off', Below head off' → off' = off := by
        rintro off' ⟨c1, m, c2, c3⟩
        obtain ⟨b1, k, b2, b3⟩ := hb
        have := b1 m c2; have := c1 k b2; omega
      have e : fillIndex (unwrapHeader a.header) (.cols cs) q.1 = fillDown off cs q.1 := by
        simp only [fillIndex, offset_below hin hb]
      rw [e]
      obtain ⟨f1, f2, f3, f4⟩ := fillDown_ok off cs q.1 i1 (by
        intro c hc r row hr hrow
        have hr' : 1 < head.length → r ∉ head := fun _ hm => by have := hb.1 r hm; omega
        rw [n4 r hr'] at hrow
        rw [hw row (List.mem_of_getElem? hrow)]
        exact i2 c hc)
      refine ⟨f1, f2, ?_, ?_⟩
      · intro r c h
        apply f3
        by_cases hc : c ∈ cs
        · right
          apply Nat.lt_of_not_le; intro hle
          exact h ⟨⟨cs, rfl, hc⟩, off, hb, hle⟩
        · exact .inl hc
      · rintro r c off' v ⟨cs', e', hc⟩ hb' hr hv
        cases e'
        rw [huniq off' hb'] at hr ⊢
        exact f4 r c v hc hr hv
  obtain ⟨x1, x2, x3, x4⟩ := hidx
  generalize hd2 : fillIndex (unwrapHeader a.header) a.indexCol q.1 = z at x1 x2 x3 x4
  have hnb : ∀ b, a.header ≠ .bool b := by
    intro b e; rw [e] at hh; cases hh
  have hkk : a.kwds.any (fun kv => refusedArgs.contains kv.1) = false := by
    rw [List.any_eq_false]
    intro kv hkv hc
    exact hk kv.1 (List.mem_map.2 ⟨kv, hkv, rfl⟩) (by simpa [refusedArgs] using hc)
  have htr : l.values.truthy = true := by
    rw [hv]
    cases data with
    | nil => exact absurd rfl hne
    | cons r t => rfl
  have hres : (dfFilter L a l).2 = match parseTable L a (unwrapHeader a.header) use names z.1 with
      | .error e => .error e
      | .ok out => .ok (.lasso { l with values := out }) := by
    have ht : dfTable L a data = (z.1, parseTable L a (unwrapHeader a.header) use names z.1) := by
      simp only [dfTable, hu1, hd1, n1, hd2, x1]
    have htab : tableOf l.values = some data := by rw [hv]; exact table_of data
    unfold dfFilter
    cases hhd : a.header with
    | bool b => exact absurd hhd (hnb b)
    | none => simp only [hkk, htr, htab, ht, Bool.false_eq_true, if_false, Bool.not_true]; rw [← hhd]; cases parseTable L a (unwrapHeader a.header) use names z.1 <;> rfl
    | row n => simp only [hkk, htr, htab, ht, Bool.false_eq_true, if_false, Bool.not_true]; rw [← hhd]; cases parseTable L a (unwrapHeader a.header) use names z.1 <;> rfl
    | rows ns => simp only [hkk, htr, htab, ht, Bool.false_eq_true, if_false, Bool.not_true]; rw [← hhd]; cases parseTable L a (unwrapHeader a.header) use names z.1 <;> rfl
  refine ⟨⟨z.1.map (·.map noNone), unwrapHeader a.header, a.indexCol,
    manyRows (unwrapHeader a.header), use, a.skipRows, a.squeeze, a.passed, a.kwds⟩, names,
    ?_, ?_, ?_, hin, rfl, hu2, rfl, rfl, rfl, hs, ?_, ?_⟩
  · rw [hres]
    constructor
    · intro e he; simp only [parseTable, he]
    · intro he; simp only [parseTable, he]
    · intro f hm he
      have hc : ((!a.squeeze || L.isFrame f) && !names.isEmpty) = false := by
        rcases hm with hm | hm | ⟨hm, hm'⟩
        · simp [n2 (.inl hm)]
        · simp [n2 (.inr hm)]
        · simp [hm, hm']
      simp only [parseTable, he, hc, Bool.false_eq_true, if_false]
    · intro f h1 h2 h3 he
      have hc : ((!a.squeeze || L.isFrame f) && !names.isEmpty) = true := by
        have hl := n2' h1 h2
        have : names.isEmpty = false := by
          cases names with
          | nil => simp at hl; omega
          | cons x t => rfl
        rcases h3 with h3 | h3 <;> simp [h3, this]
      constructor
      · intro g hg; simp only [parseTable, he, hc, if_true, hg]
      · intro g hg; simp only [parseTable, he, hc, if_true, hg]
  · intro h1 hnd
    obtain ⟨made, m1, m2⟩ := n5 h1 hnd
    refine ⟨made, m1, ?_⟩
    intro k n hk
    obtain ⟨row, r1, r2⟩ := m2 k n hk
    have hz : ∃ row', z.1[n]? = some row' ∧ row'.length = row.length := by
      have := x2 n
      rw [r2] at this
      cases h : z.1[n]? with
      | none => rw [h] at this; simp at this
      | some row' => rw [h] at this; exact ⟨row', rfl, by simpa using this⟩
    obtain ⟨row', z1, z2⟩ := hz
    have hcells : ∀ c, cellOf z.1 n c = cellOf q.1 n c := by
      intro c
      apply x3
      rintro ⟨_, off, hb, ho⟩
      have := hb.1 n (List.mem_of_getElem? hk)
      omega
    refine ⟨row, row'.map noNone, r1, by simp only [List.getElem?_map, z1, Option.map_some], by simp [z2], ?_⟩
    intro c u v hu hv
    have hc := hcells c
    simp only [cellOf, z1, r2, Option.bind_some, hu] at hc
    simp only [List.getElem?_map, hc, Option.map_some, Option.some.injEq] at hv
    rw [← hv]; exact shown_noNone u
  · simp only [List.length_map]; rw [sameSize_length x2, n3]
  · simp only
    generalize hq : unwrapHeader a.header = h at hin
    cases hin with
    | none => simp [manyRows]
    | row n => simp [manyRows]
    | rows => simp [manyRows]
  · intro r hr
    have hmap : ∀ c, cellOf (z.1.map (·.map noNone)) r c = (cellOf z.1 r c).map noNone := by
      intro c
      unfold cellOf
      rw [List.getElem?_map]
      cases z.1[r]? with
      | none => rfl
      | some row => simp only [Option.map_some, Option.bind_some, List.getElem?_map]
    constructor
    · intro c
      simp only [hmap, Option.map_eq_none_iff]
      rw [← hcell r hr c]
      have hs := x2 r
      unfold cellOf
      cases h1 : z.1[r]? with
      | none =>
        rw [h1] at hs
        cases h2 : q.1[r]? with
        | none => simp
        | some row => rw [h2] at hs; simp at hs
      | some row1 =>
        rw [h1] at hs
        cases h2 : q.1[r]? with
        | none => rw [h2] at hs; simp at hs
        | some row =>
          rw [h2] at hs
          simp only [Option.map_some, Option.some.injEq] at hs
          simp only [Option.bind_some, List.getElem?_eq_none_iff, hs]
    · intro c v hv'
      simp only [hmap, Option.map_eq_some_iff] at hv'
      obtain ⟨u, hu', rfl⟩ := hv'
      by_cases hx : ManyIndex a.indexCol c ∧ ∃ off, Below head off ∧ off ≤ r
      · left
        obtain ⟨hm, off, hb, ho⟩ := hx
        refine ⟨off, hm, hb, ho, u, ?_, shown_noNone u⟩
        obtain ⟨r', s1, s2, s3, s4, s5⟩ := x4 r c off u hm hb ho hu'
        have hrr : ∀ k, off ≤ k → ∀ c, cellOf q.1 k c = cellOf data k c := by
          intro k hk c
          exact hcell k (fun _ hmem => by have := hb.1 k hmem; omega) c
        refine ⟨r', s1, s2, by rw [← hrr r' s1]; exact s3, ?_, s5⟩
        intro k k1 k2
        rw [← hrr k (by omega)]
        exact s4 k k1 k2
      · right
        refine ⟨hx, u, ?_, shown_noNone u⟩
        rw [← hcell r hr, ← x3 r c hx]
        exact hu'

/-- C93. A boolean header and arguments that are not supported are refused, and nothing is changed. -/
theorem C93_refused {S : Type} (L : FrameLib) (a : DfArgs) (l : Lasso S)
    (h : (∃ b, a.header = .bool b) ∨ ∃ k ∈ dkeys a.kwds, k ∈ ["skip_footer".toList, "chunksize".toList, "date_parser".toList]) :
    (dfFilter L a l).1 = l.values ∧
    ((dfFilter L a l).2 = .error .typeError ∨ (dfFilter L a l).2 = .error .notImplemented) := by
  unfold dfFilter
  rcases h with ⟨b, h⟩ | ⟨k, h1, h2⟩
  · simp only [h]; exact ⟨trivial, .inl trivial⟩
  · have hk : a.kwds.any (fun kv => refusedArgs.contains kv.1) = true := by
      rw [List.any_eq_true]
      obtain ⟨kv, hkv, rfl⟩ := List.mem_map.1 h1
      refine ⟨kv, hkv, ?_⟩
      simp only [refusedArgs, List.contains_iff_mem, List.mem_cons, List.not_mem_nil, or_false] at h2 ⊢
      rcases h2 with h2 | h2 | h2
      · exact .inl h2
      · exact .inr (.inl h2)
      · exact .inr (.inr (.inl h2))
    cases a.header with
    | bool b => exact ⟨rfl, .inl rfl⟩
    | none => simp only [hk, if_true]; exact ⟨trivial, .inr trivial⟩
    | row n => simp only [hk, if_true]; exact ⟨trivial, .inr trivial⟩
    | rows ns => simp only [hk, if_true]; exact ⟨trivial, .inr trivial⟩

/-- C93. Captures of a single row, a single column or a single cell are no tables: no `DataFrame` is made of numbers
or of a list of numbers, and nothing is changed. -/
theorem C93_no_table {S : Type} (L : FrameLib) (a : DfArgs) (l : Lasso S)
    (h : (∃ n, n ≠ 0 ∧ l.values = .int n) ∨ ∃ ns : List Int, ns ≠ [] ∧ l.values = .list (ns.map .int)) :
    (dfFilter L a l).1 = l.values ∧ ∃ e, (dfFilter L a l).2 = .error e := by
  have hv : l.values.truthy = true ∧ tableOf l.values = none := by
    rcases h with ⟨n, hn, h⟩ | ⟨ns, hn, h⟩
    · rw [h]; exact ⟨by simpa [Doc.truthy] using hn, rfl⟩
    · cases ns with
      | nil => exact absurd rfl hn
      | cons n t => rw [h]; exact ⟨rfl, rfl⟩
  have key : ∀ r : Doc × Except PyErr (FRes S), r = dfFilter L a l → r.1 = l.values ∧ ∃ e, r.2 = .error e := by
    intro r hr
    unfold dfFilter at hr
    simp only [hv.1, hv.2, Bool.not_true, Bool.false_eq_true, if_false] at hr
    split at hr
    · subst hr; exact ⟨rfl, _, rfl⟩
    · split at hr
      · subst hr; exact ⟨rfl, _, rfl⟩
      · subst hr
        refine ⟨rfl, ?_⟩
        simp only
        cases convertUseCols a.useCols with
        | error e => exact ⟨e, rfl⟩
        | ok u => exact ⟨_, rfl⟩
  exact key _ rfl

example (L : FrameLib) : (dfFilter L {} ({ values := .list [.int 1, .int 2] } : Lasso Unit)).2 = .error .typeError := rfl

/-- C93. Five of the arguments, `keep_default_na` among them, make no difference. -/
theorem C93_no_effect {S : Type} (L : FrameLib) (a : DfArgs) (l : Lasso S) (other : List (Str × Doc)) :
    dfFilter L { a with ignored := other } l = dfFilter L a l := rfl

/-! Witnesses -/

/-- A stand-in for *pandas* that keeps the table it is given. -/
def keepLib : FrameLib where
  fillHeader row ctl := (row, ctl)
  popName row _ := .ok (.null, row)
  parse c := if c.rows.isEmpty then .error .emptyData else .ok (asDoc c.rows)
  isFrame _ := true
  setNames d _ := .ok d
  emptyFrame := .atom 0

/-- The values of the returned lasso. -/
def madeOf {S : Type} : Except PyErr (FRes S) → Option Doc
  | .ok (.lasso l) => some l.values
  | _ => none

private def sales : List (List Doc) :=
  [[.str "city".toList, .str "day".toList, .str "sum".toList], [.str "X".toList, .int 1, .null], [.null, .int 2, .int 8],
    [.str "Y".toList, .null, .int 9], [.str [], .int 1, .int 9]]

/-- The hypotheses of `C93_cells_partial` hold of a table with two index columns. -/
example : Rectangular sales 3 ∧ HeaderIn (.row 0) [0] ∧ Below [0] 1 ∧ (∀ cs, IndexCol.cols [0, 1] = .cols cs → cs.Nodup ∧ (∀ c ∈ cs, c < 3) ∧ [0] ≠ []) ∧
    ∀ row, ∃ q, keepLib.popName row (.cols [0, 1]) = .ok q := by
  refine ⟨?_, .row 0, by simp [Below], ?_, fun row => ⟨_, rfl⟩⟩
  · intro row hr; simp [sales] at hr; rcases hr with rfl | rfl | rfl | rfl | rfl <;> rfl
  · intro cs h; cases h; decide

example : madeOf (dfFilter keepLib { indexCol := .cols [0, 1] } ({ values := asDoc sales } : Lasso Unit)).2 = some (asDoc
    [[.str "city".toList, .str "day".toList, .str "sum".toList], [.str "X".toList, .int 1, .str []], [.str "X".toList, .int 2, .int 8],
    [.str "Y".toList, .int 2, .int 9], [.str "Y".toList, .int 1, .int 9]]) := rfl

/-- With a header in the rows 0 and 1. -/
example : madeOf (dfFilter keepLib { header := .rows [0, 1], indexCol := .cols [0] } ({ values := asDoc sales } : Lasso Unit)).2 = some (asDoc
    [[.str "city".toList, .str "day".toList, .str "sum".toList], [.str "X".toList, .int 1, .str []], [.str [], .int 2, .int 8],
    [.str "Y".toList, .str [], .int 9], [.str "Y".toList, .int 1, .int 9]]) := rfl

/-- C93 fails with `skiprows`: the blank cell above the column of the index, in the header that follows the
skipped rows, takes the text of a skipped row; so do blank cells below take the header. -/
theorem C93_skiprows_refuted : ∃ (data : List (List Doc)) (a : DfArgs), a.skipRows = .first 2 ∧ a.header = .row 0 ∧
    a.indexCol = .cols [0] ∧ cellOf data 2 0 = some .null ∧
    madeOf (dfFilter keepLib a ({ values := asDoc data } : Lasso Unit)).2 =
      some (asDoc [[.str "Report".toList, .str []], [.str "of 2019".toList, .str []], [.str "of 2019".toList, .str "sum".toList],
        [.str "X".toList, .int 1]]) :=
  ⟨[[.str "Report".toList, .null], [.str "of 2019".toList, .null], [.null, .str "sum".toList], [.str "X".toList, .int 1]],
    { skipRows := .first 2, indexCol := .cols [0] }, rfl, rfl, rfl, rfl, rfl⟩

/-- C93 fails for `usecols` as letters of columns, which fails for all tables. -/
theorem C93_letters_refuted {S : Type} (L : FrameLib) (a : DfArgs) (l : Lasso S) (s : Str) (hu : a.useCols = .letters s)
    (f : Lasso S) : (dfFilter L a l).2 ≠ .ok (.lasso f) := by
  have ht : ∀ data, (dfTable L a data).2 = .error .nameError := by
    intro data; simp only [dfTable, hu, convertUseCols]
  have key : ∀ h : Header, (match h with
      | .bool _ => ((l.values, .error .typeError) : Doc × Except PyErr (FRes S))
      | _ =>
        if a.kwds.any (fun kv => refusedArgs.contains kv.1) then (l.values, .error .notImplemented)
        else if !l.values.truthy then (l.values, .ok (.other L.emptyFrame))
        else match tableOf l.values with
          | none => (l.values, match convertUseCols a.useCols with
            | .error e => .error e
            | .ok _ => .error .typeError)
          | some data =>
            let q := dfTable L a data
            (.list (q.1.map .list), match q.2 with
              | .error e => .error e
              | .ok out => .ok (.lasso { l with values := out }))).2 ≠ .ok (.lasso f) := by
    intro h
    cases h with
    | bool b => simp
    | _ =>
      simp only
      split
      · simp
      · split
        · simp
        · split
          · simp [hu, convertUseCols]
          · simp [ht]
  exact key a.header

/-- The filter as one of a ranger: an exception is an error, and what is left of the values does not show. -/
def dfRec {S : Type} (L : FrameLib) (a : DfArgs) : FRec S := ⟨fun l _ _ => (dfFilter L a l).2, true⟩

/-- C93 fails for empty captures: instead of an empty `DataFrame` there is a `ValueError`, as the filter returns no
lasso. -/
theorem C93_empty_refuted {S : Type} (L : FrameLib) (R : Ranger S) (l : Lasso S) (o : Opts) (hv : l.values = .list [])
    (ho : l.opts = some o) (hl : (o.get "lax".toList (.bool false)).truthy = false) (hf : R.filters "df".toList = some (dfRec L {})) :
    R.makeCall (.lasso l) "df".toList [] [] = .error .valueError := by
  have e : (dfFilter L {} l).2 = .ok (.other L.emptyFrame) := by
    unfold dfFilter; rw [hv]; rfl
  unfold Ranger.makeCall
  simp only [ho, hf, dfRec, e, dget, Option.getD_none, hl, Bool.not_true, Bool.and_false, Bool.false_eq_true, if_false]

example : Opts.get [[("lax".toList, .bool false)]] "lax".toList (.bool false) = .bool false := rfl

/-- C93 fails for failures: with the option `lax`, calls that fail leave the values as they were, but `df` has
filled in the captured lists before *pandas* fails. -/
theorem C93_in_place_refuted : ∃ (L : FrameLib) (a : DfArgs) (data : List (List Doc)),
    (match (dfFilter L a ({ values := asDoc data } : Lasso Unit)).2 with | .error _ => true | .ok _ => false) = true ∧
    (dfFilter L a ({ values := asDoc data } : Lasso Unit)).1 = asDoc [[.str "h".toList], [.int 1], [.int 1]] ∧
    cellOf data 2 0 = some .null :=
  ⟨{ keepLib with parse := fun _ => .error (.other .valueError) }, { indexCol := .cols [0] },
    [[.str "h".toList], [.int 1], [.null]], rfl, rfl, rfl⟩

/-- C93. A table index without a header fails. -/
theorem C93_headless_refuted (L : FrameLib) (a : DfArgs) (data : List (List Doc)) (cs : List Nat) (hh : a.header = .none)
    (hi : a.indexCol = .cols cs) (hu : a.useCols = .none) : (dfTable L a data).2 = .error .typeError := by
  simp only [dfTable, hh, hi, hu, convertUseCols, unwrapHeader, fillHead, fillIndex, offsetOf]

end Props
