import Verif.Lemmas.Pmod
set_option linter.unusedSimpArgs false
namespace Model
open Py Spec

theorem nodeAt_empty (k : Key) (ks : List Key) : nodeAt Pmod.empty (k :: ks) = none := by
  cases k <;> simp [nodeAt, Pmod.empty, Pmod.steps, Pmod.regxs]

theorem aliasAt_empty (ks : List Key) : aliasAt Pmod.empty ks = none := by
  cases ks with
  | nil => rfl
  | cons k ks => simp [aliasAt, nodeAt_empty]

theorem regxsAt_empty (ks : List Key) : regxsAt Pmod.empty ks = [] := by
  cases ks with
  | nil => rfl
  | cons k ks => simp [regxsAt, nodeAt_empty]

theorem aliasAt_name (pm : Pmod) (n : Str) (ks : List Key) :
    aliasAt pm (.name n :: ks) = aliasAt ((dget pm.steps n).getD Pmod.empty) ks := by
  simp only [aliasAt, nodeAt]
  cases dget pm.steps n with
  | none => simp; exact (aliasAt_empty ks).symm
  | some c => rfl

theorem aliasAt_regx (pm : Pmod) (n : Str) (ks : List Key) :
    aliasAt pm (.regx n :: ks) = aliasAt ((dget pm.regxs n).getD Pmod.empty) ks := by
  simp only [aliasAt, nodeAt]
  cases dget pm.regxs n with
  | none => simp; exact (aliasAt_empty ks).symm
  | some c => rfl

theorem regxsAt_name (pm : Pmod) (n : Str) (ks : List Key) :
    regxsAt pm (.name n :: ks) = regxsAt ((dget pm.steps n).getD Pmod.empty) ks := by
  simp only [regxsAt, nodeAt]
  cases dget pm.steps n with
  | none => simp; exact regxsAt_empty ks
  | some c => rfl

theorem regxsAt_regx (pm : Pmod) (n : Str) (ks : List Key) :
    regxsAt pm (.regx n :: ks) = regxsAt ((dget pm.regxs n).getD Pmod.empty) ks := by
  simp only [regxsAt, nodeAt]
  cases dget pm.regxs n with
  | none => simp; exact regxsAt_empty ks
  | some c => rfl

/-- The key of a source step. -/
def keyOf (s : Str) : Key := match s with
  | '~' :: pat => .regx pat
  | _ => .name s

theorem keyOf_cases (s : Str) : (startsWith ['~'] s = true ∧ keyOf s = .regx s.tail) ∨
    (startsWith ['~'] s = false ∧ keyOf s = .name s) := by
  cases s with
  | nil => right; exact ⟨rfl, rfl⟩
  | cons c t =>
    by_cases h : c = '~'
    · subst h; left; exact ⟨by simp [startsWith], rfl⟩
    · right
      refine ⟨by simp [startsWith, List.isPrefixOf, Ne.symm h], ?_⟩
      unfold keyOf
      split
      · next heq => injection heq with h1 _; exact absurd h1 h
      · rfl

theorem keysOf_eq (f : Str) : keysOf f = (iterPartsRelaxed f).map keyOf := rfl

theorem getD_ddel_append (r : List (Str × Pmod)) (k k2 : Str) (v : Pmod) :
    dget (ddel r k ++ [(k, v)]) k2 = if k2 = k then some v else dget r k2 := by
  rw [dget_append, dget_ddel, dget_cons]
  by_cases h : k2 = k
  · subst h; simp
  · simp [h, Ne.symm h]

theorem aliasAt_insert (t : Str) (srcs : List Str) : ∀ (pm : Pmod) (ks : List Key),
    aliasAt (pm.insert t srcs) ks = if srcs.map keyOf = ks then some t else aliasAt pm ks := by
  induction srcs with
  | nil =>
    rintro ⟨a, s, r⟩ ks
    cases ks with
    | nil => simp [Pmod.insert, aliasAt, nodeAt, Pmod.alias]
    | cons k ks =>
      cases k <;> simp [Pmod.insert, aliasAt, nodeAt, Pmod.alias, Pmod.steps, Pmod.regxs]
  | cons src rest ih =>
    rintro ⟨a, s, r⟩ ks
    rcases keyOf_cases src with ⟨h1, h2⟩ | ⟨h1, h2⟩
    · simp only [Pmod.insert, h1, if_true, List.map_cons, h2]
      cases ks with
      | nil => simp [aliasAt, nodeAt, Pmod.alias]
      | cons k ks =>
        cases k with
        | name n => rw [aliasAt_name, aliasAt_name]; simp [Pmod.steps]
        | regx n =>
          rw [aliasAt_regx, aliasAt_regx]
          simp only [Pmod.regxs, getD_ddel_append]
          by_cases hn : n = src.tail
          · subst hn; simp [ih]
          · simp [hn, Ne.symm hn]
    · simp only [Pmod.insert, h1, List.map_cons, h2]
      cases ks with
      | nil => simp [aliasAt, nodeAt, Pmod.alias]
      | cons k ks =>
        cases k with
        | regx n => rw [aliasAt_regx, aliasAt_regx]; simp [Pmod.regxs]
        | name n =>
          rw [aliasAt_name, aliasAt_name]
          simp only [Pmod.steps, Bool.false_eq_true, if_false, dget_dset]
          by_cases hn : n = src
          · subst hn; simp [ih]
          · simp [hn, Ne.symm hn]

theorem regxsAt_insert (t : Str) (srcs : List Str) : ∀ (pm : Pmod) (ks : List Key),
    regxsAt (pm.insert t srcs) ks = match nextRegx ks (srcs.map keyOf) with
      | some p => (regxsAt pm ks).filter (fun x => x ≠ p) ++ [p]
      | none => regxsAt pm ks := by
  induction srcs with
  | nil =>
    rintro ⟨a, s, r⟩ ks
    cases ks with
    | nil => simp [Pmod.insert, regxsAt, nodeAt, Pmod.regxs, nextRegx]
    | cons k ks =>
      cases k <;> simp [Pmod.insert, regxsAt, nodeAt, Pmod.steps, Pmod.regxs, nextRegx]
  | cons src rest ih =>
    rintro ⟨a, s, r⟩ ks
    rcases keyOf_cases src with ⟨h1, h2⟩ | ⟨h1, h2⟩
    · simp only [Pmod.insert, h1, if_true, List.map_cons, h2]
      cases ks with
      | nil =>
        simp only [regxsAt, nodeAt, Pmod.regxs, nextRegx, ddel, List.map_append, List.filter_map]
        rfl
      | cons k ks =>
        cases k with
        | name n => rw [regxsAt_name, regxsAt_name]; simp [Pmod.steps, nextRegx]
        | regx n =>
          rw [regxsAt_regx, regxsAt_regx]
          simp only [Pmod.regxs, getD_ddel_append, nextRegx]
          by_cases hn : n = src.tail
          · subst hn; simp [ih]
          · simp [hn, Ne.symm hn]
    · simp only [Pmod.insert, h1, List.map_cons, h2]
      cases ks with
      | nil => simp [regxsAt, nodeAt, Pmod.regxs, nextRegx]
      | cons k ks =>
        cases k with
        | regx n => rw [regxsAt_regx, regxsAt_regx]; simp [Pmod.regxs, nextRegx]
        | name n =>
          rw [regxsAt_name, regxsAt_name]
          simp only [Pmod.steps, Bool.false_eq_true, if_false, dget_dset, nextRegx]
          by_cases hn : n = src
          · subst hn; simp [ih]
          · simp [hn, Ne.symm hn]

theorem keepLast_snoc (xs : List Str) (x : Str) :
    keepLast (xs ++ [x]) = (keepLast xs).filter (fun y => y ≠ x) ++ [x] := by
  induction xs with
  | nil => simp [keepLast]
  | cons a t ih =>
    simp only [List.cons_append, keepLast, List.mem_append, List.mem_singleton]
    by_cases h1 : a ∈ t
    · simp [h1, ih]
    · by_cases h2 : a = x
      · subst h2; simp [h1, ih]
      · simp [h1, h2, ih, List.filter_cons]

theorem mem_keepLast (xs : List Str) (x : Str) : x ∈ keepLast xs ↔ x ∈ xs := by
  induction xs with
  | nil => simp [keepLast]
  | cons a t ih =>
    simp only [keepLast]
    split
    · next h =>
      rw [ih, List.mem_cons]
      exact ⟨Or.inr, fun h' => h'.elim (fun e => e ▸ h) id⟩
    · simp [ih]

theorem keepLast_nodup (xs : List Str) : (keepLast xs).Nodup := by
  induction xs with
  | nil => simp [keepLast]
  | cons a t ih =>
    simp only [keepLast]
    split
    · exact ih
    · next h => exact List.nodup_cons.2 ⟨by rw [mem_keepLast]; exact h, ih⟩

theorem keepLast_of_nodup {xs : List Str} (h : xs.Nodup) : keepLast xs = xs := by
  induction xs with
  | nil => rfl
  | cons a t ih =>
    rw [List.nodup_cons] at h
    simp [keepLast, h.1, ih h.2]

theorem keepLast_append (xs ys : List Str) :
    keepLast (xs ++ ys) = (keepLast xs).filter (fun x => !ys.contains x) ++ keepLast ys := by
  induction xs with
  | nil => simp [keepLast]
  | cons a t ih =>
    simp only [List.cons_append, keepLast, List.mem_append]
    by_cases h1 : a ∈ t
    · simp [h1, ih]
    · by_cases h2 : a ∈ ys
      · simp [h1, h2, ih]
      · simp [h1, h2, ih, List.filter_cons]

theorem insert_distinct (t : Str) (srcs : List Str) : ∀ (pm : Pmod), DistinctKeys pm →
    DistinctKeys (pm.insert t srcs) := by
  have hemp : DistinctKeys Pmod.empty := .mk _ _ _ (by simp) (by simp) (by simp) (by simp)
  induction srcs with
  | nil =>
    rintro ⟨a, s, r⟩ h
    cases h with
    | mk _ _ _ h1 h2 h3 h4 => exact .mk _ _ _ h1 h2 h3 h4
  | cons src rest ih =>
    rintro ⟨a, s, r⟩ h
    have hc1 : DistinctKeys ((dget s src).getD Pmod.empty) := by
      cases e : dget s src with
      | none => exact hemp
      | some c => exact h.step (x := .mk a s r) e
    have hc2 : DistinctKeys ((dget r src.tail).getD Pmod.empty) := by
      cases e : dget r src.tail with
      | none => exact hemp
      | some c => exact h.regx (x := .mk a s r) e
    have h' := h
    rw [distinctKeys_iff] at h'
    obtain ⟨h1, h2, h3, h4⟩ := h'
    simp only [Pmod.steps, Pmod.regxs] at h1 h2 h3 h4
    simp only [Pmod.insert]
    split
    · rw [distinctKeys_iff]
      refine ⟨h1, ?_, h3, ?_⟩
      · have e : dkeys (ddel r src.tail) = (dkeys r).filter (fun x => decide (x ≠ src.tail)) := by
          unfold ddel dkeys; rw [List.filter_map]; rfl
        have e2 : dkeys (ddel r src.tail ++ [(src.tail, Pmod.insert t rest ((dget r src.tail).getD Pmod.empty))])
            = dkeys (ddel r src.tail) ++ [src.tail] := by simp [dkeys]
        simp only [Pmod.regxs]
        rw [e2, e, List.nodup_append]
        refine ⟨h2.filter _, by simp, ?_⟩
        intro x hx y hy e; subst e; simp at hx hy; exact hx.2 hy
      · intro k c hc
        simp only [Pmod.regxs, getD_ddel_append] at hc
        split at hc
        · injection hc with hc; subst hc; exact ih _ hc2
        · exact h4 _ _ hc
    · rw [distinctKeys_iff]
      refine ⟨nodup_dkeys_dset _ _ h1, h2, ?_, h4⟩
      intro k c hc
      simp only [Pmod.steps, dget_dset] at hc
      split at hc
      · injection hc with hc; subst hc; exact ih _ hc1
      · exact h3 _ _ hc

theorem empty_distinct : DistinctKeys Pmod.empty := .mk _ _ _ (by simp) (by simp) (by simp) (by simp)

/-- A successful build is the insertion of the valid tuples one after the other. -/
theorem pmodsLoop_ok (E : RegexLib) (tuples : List (Option Str × Option Str)) : ∀ (root pm : Pmod),
    pmodsLoop E root tuples = .ok pm →
    pm = (validTuples tuples).foldl (fun p ft => p.insert ft.2 (iterPartsRelaxed ft.1)) root := by
  induction tuples with
  | nil => intro root pm h; simp [pmodsLoop] at h; simp [validTuples, h]
  | cons ft rest ih =>
    intro root pm h
    obtain ⟨f, t⟩ := ft
    cases f with
    | none =>
      have h' : pmodsLoop E root rest = .ok pm := by simpa [pmodsLoop] using h
      rw [ih _ _ h']; simp [validTuples]
    | some f => cases t with
      | none =>
        have h' : pmodsLoop E root rest = .ok pm := by simpa [pmodsLoop] using h
        rw [ih _ _ h']; simp [validTuples]
      | some t =>
        simp only [pmodsLoop] at h
        split at h
        · next he => rw [ih _ _ h]; simp [validTuples, he]
        · next he =>
          split at h
          · rw [ih _ _ h]
            have : validTuples ((some f, some t) :: rest) = (f, t) :: validTuples rest := by
              simp only [validTuples, List.filterMap_cons, if_neg he]
            rw [this, List.foldl_cons]
          · cases h

end Model
