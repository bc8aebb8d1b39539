import Verif.Spec.DictFilters
import Verif.Lemmas.PstepTree
set_option linter.unusedSimpArgs false
/-
C118 the filters `dict`, `odict` and `sr`.
-/
namespace Props
open Py Model Spec

theorem key_same (a b : CVal) : a.key = b.key ↔ SameCell a b := by
  unfold SameCell
  cases a with
  | null => cases b <;> simp [CVal.key, numberOf]
  | text s => cases b <;> simp [CVal.key, numberOf]
  | other t => cases b <;> simp [CVal.key, numberOf]
  | bool x => cases b with
    | bool y => cases x <;> cases y <;> simp [CVal.key, numberOf]
    | int j => cases x <;> simp [CVal.key, numberOf, eq_comm]
    | _ => simp [CVal.key, numberOf]
  | int i => cases b with
    | bool y => cases y <;> simp [CVal.key, numberOf, eq_comm]
    | int j => simp [CVal.key, numberOf, eq_comm]
    | _ => simp [CVal.key, numberOf]

/-- What is found under a key. -/
private def look (d : List (CVal × CVal)) (j : CKey) : Option CVal :=
  match d with
  | [] => none
  | (k, v) :: t => if k.key = j then some v else look t j

private theorem look_put (k v : CVal) (d : List (CVal × CVal)) (j : CKey) :
    look (putItem k v d) j = if k.key = j then some v else look d j := by
  induction d with
  | nil => simp [putItem, look]
  | cons e t ih =>
    obtain ⟨k', v'⟩ := e
    rw [putItem]
    by_cases h : k'.key = k.key
    · simp only [h, if_true, look]
      split <;> rfl
    · simp only [h, if_false, look, ih]
      by_cases h2 : k'.key = j
      · have : k.key ≠ j := fun e => h (h2.trans e.symm)
        simp [h2, this]
      · simp [h2]

private theorem put_keys (k v : CVal) (d : List (CVal × CVal)) :
    (putItem k v d).map (·.1) = if k.key ∈ d.map (·.1.key) then d.map (·.1) else d.map (·.1) ++ [k] := by
  induction d with
  | nil => simp [putItem]
  | cons e t ih =>
    obtain ⟨k', v'⟩ := e
    rw [putItem]
    by_cases h : k'.key = k.key
    · simp [h]
    · simp only [h, if_false, List.map_cons, ih, List.mem_cons, Ne.symm h, false_or]
      split <;> simp

/-- The rows put into an empty dictionary, one after the other. -/
private def putRows (rows : List (CVal × CVal)) : List (CVal × CVal) := rows.foldl (fun d r => putItem r.1 r.2 d) []

private theorem putItems_rows (rows : List (CVal × CVal)) : ∀ d,
    putItems d (rows.map (fun r => .row [r.1, r.2])) = .ok (rows.foldl (fun d r => putItem r.1 r.2 d) d) := by
  induction rows with
  | nil => intro d; rfl
  | cons r rows ih => intro d; simp only [List.map_cons, putItems, CItem.pair, List.foldl_cons]; exact ih _

private theorem putKwds_rows (kwds : List (Str × CVal)) : ∀ d,
    putKwds d kwds = (kwds.map (fun p => (CVal.text p.1, p.2))).foldl (fun d r => putItem r.1 r.2 d) d := by
  induction kwds with
  | nil => intro d; rfl
  | cons p t ih => intro d; simp only [putKwds, List.map_cons, List.foldl_cons]; exact ih _

private theorem list_rev_ind {α : Type} {P : List α → Prop} (h0 : P []) (h1 : ∀ l x, P l → P (l ++ [x])) (l : List α) : P l := by
  have : ∀ l : List α, P l.reverse := by
    intro l
    induction l with
    | nil => exact h0
    | cons x l ih => rw [List.reverse_cons]; exact h1 _ _ ih
  have := this l.reverse
  rwa [List.reverse_reverse] at this

private theorem putRows_concat (rows : List (CVal × CVal)) (r : CVal × CVal) :
    putRows (rows ++ [r]) = putItem r.1 r.2 (putRows rows) := by
  unfold putRows; rw [List.foldl_append]; rfl

private theorem lastFor_concat (rows : List (CVal × CVal)) (r : CVal × CVal) (k v : CVal) :
    LastFor (rows ++ [r]) k v ↔ (SameCell r.1 k ∧ r.2 = v) ∨ (¬ SameCell r.1 k ∧ LastFor rows k v) := by
  constructor
  · rintro ⟨before, k', after, e, h1, h2⟩
    rcases List.eq_nil_or_concat after with ea | ⟨a', x, ea⟩
    · subst ea
      have := List.append_inj' e rfl
      simp only [List.cons.injEq, and_true] at this
      rw [this.2]
      exact .inl ⟨h1, rfl⟩
    · subst ea
      rw [List.concat_eq_append, ← List.cons_append, ← List.append_assoc] at e
      have := List.append_inj' e rfl
      simp only [List.cons.injEq, and_true] at this
      obtain ⟨e1, rfl⟩ := this
      refine .inr ⟨h2 r (by simp), before, k', a', e1, h1, fun q hq => h2 q (by simp [hq])⟩
  · rintro (⟨h1, rfl⟩ | ⟨h1, before, k', after, rfl, h2, h3⟩)
    · exact ⟨rows, r.1, [], rfl, h1, by simp⟩
    · refine ⟨before, k', after ++ [r], by simp, h2, ?_⟩
      intro q hq
      rcases List.mem_append.1 hq with hq | hq
      · exact h3 q hq
      · simp at hq; rw [hq]; exact h1

private theorem look_last (rows : List (CVal × CVal)) (k v : CVal) : look (putRows rows) k.key = some v ↔ LastFor rows k v := by
  induction rows using list_rev_ind with
  | h0 =>
    constructor
    · intro h; simp [putRows, look] at h
    · rintro ⟨b, k', a, e, -⟩; simp at e
  | h1 rows r ih =>
    rw [putRows_concat, look_put, lastFor_concat]
    by_cases h : r.1.key = k.key
    · have := (key_same _ _).1 h
      simp [h, this]
    · have h' : ¬ SameCell r.1 k := fun e => h ((key_same _ _).2 e)
      simp [h, h', ih]

private theorem keys_map (d : List (CVal × CVal)) : d.map (·.1.key) = (d.map (·.1)).map CVal.key := by simp [Function.comp_def]

/-- The keys of rows put into a dictionary. -/
private theorem keys_spec (rows : List (CVal × CVal)) :
    (∀ j, j ∈ (putRows rows).map (·.1.key) ↔ j ∈ rows.map (·.1.key)) ∧
    ((putRows rows).map (·.1)).Sublist (rows.map (·.1)) ∧
    ((putRows rows).map (·.1)).Pairwise (fun a b => a.key ≠ b.key) ∧
    ∀ k ∈ (putRows rows).map (·.1), ∃ before v after, rows = before ++ (k, v) :: after ∧ ∀ r ∈ before, r.1.key ≠ k.key := by
  induction rows using list_rev_ind with
  | h0 => simp [putRows]
  | h1 rows r ih =>
    obtain ⟨h1, h2, h3, h4⟩ := ih
    rw [putRows_concat, keys_map (putItem _ _ _), put_keys]
    by_cases h : r.1.key ∈ (putRows rows).map (·.1.key)
    · simp only [if_pos h]
      refine ⟨?_, ?_, h3, ?_⟩
      · intro j
        rw [← keys_map, h1, List.map_append, List.mem_append]
        constructor
        · exact .inl
        · rintro (h' | h')
          · exact h'
          · simp at h'; rw [h']; exact (h1 _).1 h
      · rw [List.map_append]; exact h2.trans (List.sublist_append_left _ _)
      · intro k hk
        obtain ⟨b, v, a, e, hb⟩ := h4 k hk
        exact ⟨b, v, a ++ [r], by rw [e]; simp, hb⟩
    · simp only [if_neg h]
      refine ⟨?_, ?_, ?_, ?_⟩
      · intro j
        rw [List.map_append, ← keys_map, List.mem_append, h1, List.map_append, List.mem_append]; simp
      · rw [List.map_append]; exact h2.append (List.Sublist.refl _)
      · refine List.pairwise_append.2 ⟨h3, by simp, ?_⟩
        intro a ha b hb
        simp at hb
        rw [hb]
        intro e
        exact h (by rw [keys_map, ← e]; exact List.mem_map_of_mem ha)
      · intro k hk
        rcases List.mem_append.1 hk with hk | hk
        · obtain ⟨b, v, a, e, hb⟩ := h4 k hk
          exact ⟨b, v, a ++ [r], by rw [e]; simp, hb⟩
        · simp at hk
          subst hk
          refine ⟨rows, r.2, [], rfl, ?_⟩
          intro q hq e
          exact h ((h1 _).2 (by rw [← e]; exact List.mem_map.2 ⟨q, hq, rfl⟩))

private theorem look_mem {d : List (CVal × CVal)} (h : (d.map (·.1)).Pairwise (fun a b => a.key ≠ b.key)) (k v : CVal) :
    (∃ k', (k', v) ∈ d ∧ SameCell k' k) ↔ look d k.key = some v := by
  induction d with
  | nil => simp [look]
  | cons e t ih =>
    obtain ⟨k0, v0⟩ := e
    rw [List.map_cons, List.pairwise_cons] at h
    rw [look]
    by_cases hk : k0.key = k.key
    · rw [if_pos hk]
      constructor
      · rintro ⟨k', hm, hs⟩
        rcases List.mem_cons.1 hm with e | hm
        · simp only [Prod.mk.injEq] at e; rw [e.2]
        · exact absurd (hk.trans ((key_same _ _).2 hs).symm) (h.1 k' (List.mem_map.2 ⟨_, hm, rfl⟩))
      · intro e
        simp only [Option.some.injEq] at e
        exact ⟨k0, by simp [e], (key_same _ _).1 hk⟩
    · rw [if_neg hk, ← ih h.2]
      constructor
      · rintro ⟨k', hm, hs⟩
        rcases List.mem_cons.1 hm with e | hm
        · simp only [Prod.mk.injEq] at e
          rw [← e.1] at hk
          exact absurd ((key_same _ _).2 hs) hk
        · exact ⟨k', hm, hs⟩
      · rintro ⟨k', hm, hs⟩
        exact ⟨k', List.mem_cons_of_mem _ hm, hs⟩

/-- **C118** Of a table of two columns, the filters `dict` and `odict` make a dictionary in which every first cell is a key, in the order of
the rows, each once, as it is written in the first row that has it; under it is the second cell of the last row that has it. Keyword
arguments are like further rows. -/
theorem C118_dict (rows : List (CVal × CVal)) (kwds : List (Str × CVal)) :
    let all := rows ++ kwds.map (fun p => (CVal.text p.1, p.2))
    ∃ d, dictFilter 0 kwds (TwoColumns rows) = .ok d ∧
      (d.map (·.1)).Sublist (all.map (·.1)) ∧ (d.map (·.1)).Pairwise (fun a b => ¬ SameCell a b) ∧
      (∀ k ∈ d.map (·.1), ∃ before v after, all = before ++ (k, v) :: after ∧ ∀ r ∈ before, ¬ SameCell r.1 k) ∧
      ∀ k v, (∃ k', (k', v) ∈ d ∧ SameCell k' k) ↔ LastFor all k v := by
  intro all
  obtain ⟨-, h2, h3, h4⟩ := keys_spec all
  refine ⟨putRows all, ?_, h2, h3.imp (fun h e => h ((key_same _ _).2 e)), ?_, ?_⟩
  · unfold dictFilter TwoColumns dictOf
    simp only [if_true, putItems_rows, putKwds_rows]
    unfold putRows
    rw [List.foldl_append]
  · intro k hk
    obtain ⟨b, v, a, e, hb⟩ := h4 k hk
    exact ⟨b, v, a, e, fun r hr e => hb r hr ((key_same _ _).2 e)⟩
  · intro k v
    rw [look_mem h3, look_last]

/-- **C118** The filter `sr` makes a Series with the same labels and cells. -/
theorem C118_series (values : CVals) : srFilter values = dictFilter 0 [] values := by
  unfold srFilter dictFilter
  simp only [if_true]
  cases dictOf values <;> rfl

private theorem putItems_ok : ∀ (xs : List CItem) (d r : List (CVal × CVal)), putItems d xs = .ok r →
    ∀ x ∈ xs, (∃ k v, x = .row [k, v]) ∨ ∃ a b, x = .cell (.text [a, b]) := by
  intro xs
  induction xs with
  | nil => simp
  | cons y xs ih =>
    intro d r h x hx
    rw [putItems] at h
    cases hp : y.pair with
    | error e => simp [hp] at h
    | ok kv =>
      simp only [hp] at h
      rcases List.mem_cons.1 hx with rfl | hx
      · unfold CItem.pair at hp
        split at hp
        · exact .inl ⟨_, _, rfl⟩
        · simp at hp
        · exact .inr ⟨_, _, rfl⟩
        · simp at hp
        · simp at hp
      · exact ih _ _ h x hx

/-- **C118**, for captured rows: what is not a table of two columns is refused. So is a single cell, unless it is an empty text. -/
theorem C118_refused_partial (nargs : Nat) (kwds : List (Str × CVal)) (values : CVals) (d : List (CVal × CVal))
    (h : dictFilter nargs kwds values = .ok d) :
    nargs = 0 ∧ (values = .scalar (.text []) ∨
      ∃ xs, values = .items xs ∧ ((∀ x ∈ xs, ∃ cs, x = .row cs) → ∃ rows, values = TwoColumns rows)) := by
  unfold dictFilter at h
  split at h
  · next hn =>
    refine ⟨hn, ?_⟩
    cases values with
    | scalar c =>
      cases c with
      | text s =>
        cases s with
        | nil => exact .inl rfl
        | cons a s => simp [dictOf, putItems, CItem.pair] at h
      | _ => simp [dictOf] at h
    | items xs =>
      refine .inr ⟨xs, rfl, fun hr => ?_⟩
      simp only [dictOf] at h
      cases hp : putItems [] xs with
      | error e => simp [hp] at h
      | ok r =>
        have hx := putItems_ok xs _ _ hp
        clear h hp
        induction xs with
        | nil => exact ⟨[], rfl⟩
        | cons x xs ih =>
          obtain ⟨rows, e⟩ := ih (fun y hy => hr y (by simp [hy])) (fun y hy => hx y (by simp [hy]))
          simp only [TwoColumns, CVals.items.injEq] at e
          obtain ⟨cs, e1⟩ := hr x (by simp)
          rcases hx x (by simp) with ⟨k, v, e2⟩ | ⟨a, b, e2⟩
          · exact ⟨(k, v) :: rows, by rw [e2, e]; rfl⟩
          · rw [e1] at e2; cases e2
  · simp at h

/-- C118 fails: a column of texts of two characters is not refused, the texts are taken apart. -/
theorem C118_refuted :
    dictFilter 0 [] (.items [.cell (.text "ab".toList), .cell (.text "cd".toList)]) =
      .ok [(.text "a".toList, .text "b".toList), (.text "c".toList, .text "d".toList)] ∧
    dictFilter 0 [] (.items [.cell (.text "abc".toList)]) = .error .valueError := ⟨rfl, rfl⟩

/-- Rows with a repeated key, also as `True`, and a keyword. -/
example : dictFilter 0 [("x".toList, .int 9)] (TwoColumns [(.int 1, .text "a".toList), (.text "x".toList, .null), (.bool true, .text "b".toList)]) =
    .ok [(.int 1, .text "b".toList), (.text "x".toList, .int 9)] := rfl

/-- Not two columns. -/
example : dictFilter 0 [] (.items [.row [.int 1, .int 2, .int 3]]) = .error .valueError ∧
    dictFilter 0 [] (.items [.cell (.int 1)]) = .error .typeError ∧ dictFilter 1 [] (TwoColumns []) = .error .typeError := ⟨rfl, rfl, rfl⟩

end Props
