import Verif.Spec.Vba
import Verif.Lemmas.Dict
/-
C103 to C107: VBA code in Excel workbooks.
-/
namespace Props
open Py Model Spec

/-! ### Names of files -/

private theorem takeWhile_stop {α : Type} (p : α → Bool) (a : List α) (x : α) (b : List α) (ha : ∀ y ∈ a, p y = true) (hx : p x = false) :
    (a ++ x :: b).takeWhile p = a := by
  induction a with
  | nil => simp [hx]
  | cons y t ih => simp [ha y (by simp), ih (fun z hz => ha z (by simp [hz]))]

private theorem takeWhile_all {α : Type} (p : α → Bool) (a : List α) (ha : ∀ y ∈ a, p y = true) : a.takeWhile p = a := by
  induction a with
  | nil => rfl
  | cons y t ih => simp [ha y (by simp), ih (fun z hz => ha z (by simp [hz]))]

private theorem notSep {s : Str} (h1 : '/' ∉ s) (h2 : '\\' ∉ s) : ∀ c ∈ s, (!ntSep c) = true := by
  intro c hc
  unfold ntSep
  have e1 : c ≠ '/' := fun e => h1 (e ▸ hc)
  have e2 : c ≠ '\\' := fun e => h2 (e ▸ hc)
  simp [e1, e2]

private theorem ntTail_plain {s : Str} (h1 : '/' ∉ s) (h2 : '\\' ∉ s) : ntTail s = s := by
  unfold ntTail
  rw [takeWhile_all _ _ (fun c hc => notSep h1 h2 c (List.mem_reverse.1 hc)), List.reverse_reverse]

private theorem ntTail_sep (a : Str) (x : Char) (s : Str) (hx : ntSep x = true) (h1 : '/' ∉ s) (h2 : '\\' ∉ s) : ntTail (a ++ x :: s) = s := by
  unfold ntTail
  rw [List.reverse_append, List.reverse_cons, List.append_assoc, List.singleton_append,
    takeWhile_stop _ _ _ _ (fun c hc => notSep h1 h2 c (List.mem_reverse.1 hc)) (by simp [hx]), List.reverse_reverse]

private theorem ntExt_dot {p stem ext : Str} (ht : ntTail p = stem ++ '.' :: ext) (hs : ∃ c ∈ stem, c ≠ '.') (he : '.' ∉ ext) :
    ntExt p = '.' :: ext := by
  have hb : (((stem ++ '.' :: ext).reverse.takeWhile (fun c => c != '.')).reverse) = ext := by
    rw [List.reverse_append, List.reverse_cons, List.append_assoc, List.singleton_append,
      takeWhile_stop _ _ _ _ (fun c hc => by
        have : c ≠ '.' := fun e => he (e ▸ List.mem_reverse.1 hc)
        simpa using this) (by simp), List.reverse_reverse]
  have hst : (stem ++ '.' :: ext).take ((stem ++ '.' :: ext).length - ext.length - 1) = stem := by
    rw [List.take_append_of_le_length (by simp; omega)]
    have : (stem ++ '.' :: ext).length - ext.length - 1 = stem.length := by simp; omega
    rw [this, List.take_length]
  unfold ntExt
  simp only [ht, hb, hst]
  obtain ⟨c, hc, hc'⟩ := hs
  have h2 : stem.any (fun c => c != '.') = true := List.any_eq_true.2 ⟨c, hc, by simpa using hc'⟩
  simp [h2]

private theorem ntBasename_in {file folder stem ext : Str} (h : InFolder file folder stem ext) : ntBasename file = stem ++ '.' :: ext := by
  have hp1 : '/' ∉ stem ++ '.' :: ext := by
    have := h.stem.1; have := h.ext.1
    simp [*]
  have hp2 : '\\' ∉ stem ++ '.' :: ext := by
    have := h.stem.2.1; have := h.ext.2.1
    simp [*]
  have hfile := h.file
  rw [List.append_assoc] at hfile
  rcases h.folder with hf | ⟨f, hf⟩
  · rw [hf, List.nil_append] at hfile
    rw [hfile]
    unfold ntBasename
    split
    · next x rest heq =>
      exfalso
      cases hs : stem with
      | nil =>
        obtain ⟨c, hc, -⟩ := h.stem.2.2.2
        rw [hs] at hc
        cases hc
      | cons a t =>
        rw [hs, List.cons_append] at heq
        injection heq with _ heq
        cases ht : t with
        | nil => rw [ht] at heq; simp at heq
        | cons b t' =>
          rw [ht, List.cons_append] at heq
          injection heq with heq _
          exact h.stem.2.2.1 (by rw [hs, ht, heq]; simp)
    · exact ntTail_plain hp1 hp2
  · have : ∃ x, ntSep x = true ∧ x ≠ ':' ∧ folder = f ++ [x] := by
      rcases hf with hf | hf
      · exact ⟨'/', by decide, by decide, hf⟩
      · exact ⟨'\\', by decide, by decide, hf⟩
    obtain ⟨x, hx, hxc, hf⟩ := this
    rw [hf, List.append_assoc, List.singleton_append] at hfile
    rw [hfile]
    unfold ntBasename
    split
    · next y rest heq =>
      cases f with
      | nil =>
        exfalso
        rw [List.nil_append] at heq
        injection heq with _ heq
        cases hs : stem with
        | nil =>
          obtain ⟨c, hc, -⟩ := h.stem.2.2.2
          rw [hs] at hc
          cases hc
        | cons a t =>
          rw [hs, List.cons_append] at heq
          injection heq with heq _
          exact h.stem.2.2.1 (by rw [hs, heq]; simp)
      | cons a t =>
        cases t with
        | nil =>
          exfalso
          rw [List.cons_append, List.nil_append] at heq
          injection heq with _ heq
          injection heq with heq _
          exact hxc heq
        | cons b t =>
          rw [List.cons_append, List.cons_append] at heq
          injection heq with _ heq
          injection heq with _ heq
          rw [← heq]
          exact ntTail_sep _ _ _ hx hp1 hp2
    · exact ntTail_sep _ _ _ hx hp1 hp2

/-- C103. The name of the module for a file is the name of the file, without its folder and its extension. -/
theorem C103_names {file folder stem ext : Str} (h : InFolder file folder stem ext) : moduleName file = stem := by
  have hb := ntBasename_in h
  have ht : ntTail (stem ++ '.' :: ext) = stem ++ '.' :: ext := ntTail_plain
    (by have := h.stem.1; have := h.ext.1; simp [*]) (by have := h.stem.2.1; have := h.ext.2.1; simp [*])
  have he := ntExt_dot ht h.stem.2.2.2 h.ext.2.2
  unfold moduleName
  rw [hb, he]
  rw [List.take_append_of_le_length (by simp)]
  have : (stem ++ '.' :: ext).length - ('.' :: ext).length = stem.length := by simp
  rw [this, List.take_length]

example : InFolder "C:\\vba\\foo.bar.vba".toList "C:\\vba\\".toList "foo.bar".toList "vba".toList :=
  ⟨by decide, .inr ⟨"C:\\vba".toList, .inr (by decide)⟩, ⟨by decide, by decide, by decide, 'f', by decide, by decide⟩,
    ⟨by decide, by decide, by decide⟩⟩

/-! ### Gathering files -/

private theorem gather_nodup (files : List Str) : ∀ acc : List (Str × Str), (files.map moduleName).Nodup →
    (∀ f ∈ files, moduleName f ∉ acc.map Prod.fst) →
    files.foldl (fun acc f => dset acc (moduleName f) f) acc = acc ++ files.map (fun f => (moduleName f, f)) := by
  induction files with
  | nil => intro acc _ _; simp
  | cons f t ih =>
    intro acc hnd ha
    rw [List.map_cons, List.nodup_cons] at hnd
    have hd : dset acc (moduleName f) f = acc ++ [(moduleName f, f)] := by
      have := ha f (by simp)
      clear ih ha
      induction acc with
      | nil => rfl
      | cons kv s ih2 =>
        simp only [List.map_cons, List.mem_cons, not_or] at this
        simp only [dset, if_neg (Ne.symm this.1), List.cons_append]
        rw [ih2 this.2]
    rw [List.foldl_cons, hd, ih _ hnd.2]
    · simp
    · intro g hg
      rw [List.map_append, List.mem_append, not_or]
      refine ⟨ha g (by simp [hg]), ?_⟩
      simp only [List.map_cons, List.map_nil, List.mem_singleton]
      exact fun e => hnd.1 (e ▸ List.mem_map_of_mem hg)

/-! ### Importing -/

private theorem removeOld_eq (X : ExcelLib) (name : Str) : ∀ cs : List VbComp,
    (removeOld X cs name).all (fun c => decide (X.fold c.name ≠ X.fold name)) = true →
    removeOld X cs name = cs.filter (fun c => decide (X.fold c.name ≠ X.fold name))
  | [], _ => rfl
  | c :: cs, h => by
    unfold removeOld at h ⊢
    by_cases e : X.fold c.name = X.fold name
    · rw [if_pos e] at h ⊢
      by_cases ht : c.type = 100
      · rw [if_pos ht, List.all_cons] at h
        simp [e] at h
      · rw [if_neg ht] at h ⊢
        rw [List.filter_cons_of_neg (by simp [e])]
        exact (List.filter_eq_self.2 (fun c hc => List.all_eq_true.1 h c hc)).symm
    · rw [if_neg e] at h ⊢
      rw [List.all_cons, Bool.and_eq_true] at h
      rw [List.filter_cons_of_pos (by simpa using e), ← removeOld_eq X name cs h.2]

private theorem import_ok (X : ExcelLib) : ∀ (ms : List (Str × Str)) (cs cs' : List VbComp),
    (ms.map (fun m => X.fold m.1)).Nodup → importVbaFiles X ms cs = (cs', true) →
    ∃ new : List VbComp, cs' = cs.filter (fun c => decide (X.fold c.name ∉ ms.map (fun m => X.fold m.1))) ++ new ∧
      new.map VbComp.name = ms.map Prod.fst ∧
      ∀ m ∈ ms, ∃ c ∈ new, c.name = m.1 ∧ ∃ n, X.load m.2 = some (n, c.type, c.code)
  | [], cs, cs', _, h => by
    injection h with h _
    exact ⟨[], by rw [← h, List.append_nil]; exact (List.filter_eq_self.2 (fun _ _ => by simp)).symm, rfl, fun m hm => by cases hm⟩
  | (name, file) :: ms, cs, cs', hnd, h => by
    rw [List.map_cons, List.nodup_cons] at hnd
    unfold importVbaFiles at h
    simp only at h
    split at h
    · injection h with _ h
      cases h
    · next n type code hl =>
      split at h
      · next hv =>
        rw [Bool.and_eq_true] at hv
        rw [removeOld_eq X name cs hv.2] at h
        obtain ⟨new, h1, h2, h3⟩ := import_ok X ms _ _ hnd.2 h
        refine ⟨⟨name, type, code⟩ :: new, ?_, by rw [List.map_cons, h2]; rfl, ?_⟩
        · rw [h1, List.filter_append, List.filter_filter, List.append_assoc]
          congr 1
          · refine List.filter_congr (fun c _ => ?_)
            rw [← Bool.decide_and]
            refine decide_eq_decide.2 ?_
            rw [List.map_cons, List.mem_cons, not_or]
            exact and_comm
          · have e : decide (X.fold (VbComp.mk name type code).name ∉ ms.map (fun m => X.fold m.1)) = true := decide_eq_true hnd.1
            rw [List.filter_cons, if_pos e]
            rfl
        · intro m hm
          rcases List.mem_cons.1 hm with rfl | hm
          · exact ⟨_, List.mem_cons_self, rfl, n, hl⟩
          · obtain ⟨c, hc, hc'⟩ := h3 m hm
            exact ⟨c, List.mem_cons_of_mem _ hc, hc'⟩
      · injection h with _ h
        cases h

private theorem saveQuietly_comps (X : ExcelLib) (w : Workbook) (p : Str) : (saveQuietly X w p).1.comps = w.comps ∧
    (∀ c ∈ (saveQuietly X w p).2.1, SaveCall.comps c = w.comps) ∧ (saveQuietly X w p).2.1.length ≤ 1 ∧
    ((saveQuietly X w p).2.2 = false → (saveQuietly X w p).2.1 = []) ∧
    ((saveQuietly X w p).2.2 = true → (saveQuietly X w p).2.1 = [.saveAs p w.comps] ∧ (saveQuietly X w p).1.alerts = true) ∧
    ((∀ c, X.saves c = true) → (saveQuietly X w p).2.2 = true) := by
  unfold saveQuietly
  simp only
  split
  · refine ⟨rfl, fun c hc => ?_, Nat.le_refl _, fun h => by simp at h, fun _ => ⟨rfl, rfl⟩, fun _ => rfl⟩
    rw [List.mem_singleton] at hc
    rw [hc]; rfl
  · next h => exact ⟨rfl, fun c hc => (by cases hc), Nat.zero_le _, fun _ => rfl, fun h => by simp at h, fun h' => absurd (h' _) h⟩

private theorem saveWorkbook_comps (X : ExcelLib) (w : Workbook) (p : Option Str) : (saveWorkbook X w p).1.comps = w.comps ∧
    (∀ c ∈ (saveWorkbook X w p).2.1, SaveCall.comps c = w.comps) ∧ (saveWorkbook X w p).2.1.length ≤ 1 ∧
    ((saveWorkbook X w p).2.2 = false → (saveWorkbook X w p).2.1 = []) ∧
    ((saveWorkbook X w p).2.2 = true → (saveWorkbook X w p).1.alerts = w.alerts ∨ (saveWorkbook X w p).1.alerts = true) ∧
    ((∀ c, X.saves c = true) → (saveWorkbook X w p).2.2 = true) := by
  have q : ∀ p : Str, (saveQuietly X w p).1.comps = w.comps ∧
    (∀ c ∈ (saveQuietly X w p).2.1, SaveCall.comps c = w.comps) ∧ (saveQuietly X w p).2.1.length ≤ 1 ∧
    ((saveQuietly X w p).2.2 = false → (saveQuietly X w p).2.1 = []) ∧
    ((saveQuietly X w p).2.2 = true → (saveQuietly X w p).1.alerts = w.alerts ∨ (saveQuietly X w p).1.alerts = true) ∧
    ((∀ c, X.saves c = true) → (saveQuietly X w p).2.2 = true) := fun p => by
    obtain ⟨h1, h2, h3, h4, h5, h6⟩ := saveQuietly_comps X w p
    exact ⟨h1, h2, h3, h4, fun h => .inr (h5 h).2, h6⟩
  unfold saveWorkbook
  split
  · split
    · simp only
      split
      · refine ⟨rfl, fun c hc => ?_, Nat.le_refl _, fun h => by simp at h, fun _ => .inl rfl, fun _ => rfl⟩
        rw [List.mem_singleton] at hc
        rw [hc]; rfl
      · next h => exact ⟨rfl, fun c hc => (by cases hc), Nat.zero_le _, fun _ => rfl, fun h => by simp at h, fun h' => absurd (h' _) h⟩
    · exact q _
  · split
    · exact q _
    · exact ⟨rfl, fun c hc => (by cases hc), Nat.zero_le _, fun h => by simp at h, fun _ => .inl rfl, fun _ => rfl⟩

private theorem saveMacro_comps (X : ExcelLib) (w : Workbook) (p : Option Str) : (saveMacroEnabled X w p).1.comps = w.comps ∧
    (∀ c ∈ (saveMacroEnabled X w p).2.1, SaveCall.comps c = w.comps) ∧ (saveMacroEnabled X w p).2.1.length ≤ 1 ∧
    ((saveMacroEnabled X w p).2.2 = false → (saveMacroEnabled X w p).2.1 = []) ∧
    ((saveMacroEnabled X w p).2.2 = true → (saveMacroEnabled X w p).1.alerts = w.alerts ∨ (saveMacroEnabled X w p).1.alerts = true) ∧
    ((∀ c, X.saves c = true) → (saveMacroEnabled X w p).2.2 = true) := by
  unfold saveMacroEnabled
  split
  · split <;> exact saveWorkbook_comps X w _
  · exact saveWorkbook_comps X w _

private theorem gather_isEmpty (files : List Str) (h : (files.map moduleName).Nodup) : (gatherFiles files).isEmpty = files.isEmpty := by
  rw [gatherFiles, gather_nodup files [] h (fun _ _ => by simp)]
  cases files <;> rfl

private theorem import_cases {X : ExcelLib} {files : List Str} {w w' : Workbook} {newName : Option Str} {saves : List SaveCall} {ok : Bool}
    (h : importVba X files w newName = (w', saves, ok)) :
    (w' = w ∧ saves = [] ∧ (w.locked = true ∧ ok = false ∨ w.locked = false ∧ ok = true ∧ (gatherFiles files).isEmpty = true)) ∨
    (w.locked = false ∧ (gatherFiles files).isEmpty = false ∧ ∃ cs b, importVbaFiles X (gatherFiles files) w.comps = (cs, b) ∧
      ((b = false ∧ w' = { w with comps := cs } ∧ saves = [] ∧ ok = false) ∨
      (b = true ∧ saveMacroEnabled X { w with comps := cs } newName = (w', saves, ok)))) := by
  unfold importVba at h
  split at h
  · next hl =>
    injection h with h1 h
    injection h with h2 h
    exact .inl ⟨h1.symm, h2.symm, .inl ⟨hl, h.symm⟩⟩
  · next hl =>
    have hl : w.locked = false := by simpa using hl
    split at h
    · next he =>
      injection h with h1 h
      injection h with h2 h
      exact .inl ⟨h1.symm, h2.symm, .inr ⟨hl, h.symm, he⟩⟩
    · next he =>
      refine .inr ⟨hl, by simpa using he, _, _, rfl, ?_⟩
      simp only at h
      split at h
      · next hb => exact .inr ⟨hb, h⟩
      · next hb =>
        injection h with h1 h
        injection h with h2 h
        exact .inl ⟨by simpa using hb, h1.symm, h2.symm, h.symm⟩

/-- C103. When no two files have the same name (but for their folders and extensions, and as Excel compares names) and importing succeeds,
the workbook has the modules of the files, each once and with the code of its file, and other components are as before. This is what is
saved. -/
theorem C103_imported_partial (X : ExcelLib) (files : List Str) (w w' : Workbook) (newName : Option Str) (saves : List SaveCall)
    (hnd : (files.map (fun f => X.fold (moduleName f))).Nodup) (h : importVba X files w newName = (w', saves, true)) :
    Imported X files w.comps w'.comps ∧ ∀ c ∈ saves, SaveCall.comps c = w'.comps := by
  have hnd' : (files.map moduleName).Nodup := by
    have : files.map (fun f => X.fold (moduleName f)) = (files.map moduleName).map X.fold := by rw [List.map_map]; rfl
    rw [this] at hnd
    refine List.Pairwise.imp ?_ (List.pairwise_map.1 hnd)
    exact fun h e => h (by rw [e])
  have hg : gatherFiles files = files.map (fun f => (moduleName f, f)) := by
    rw [gatherFiles, gather_nodup files [] hnd' (fun _ _ => by simp)]; rfl
  rcases import_cases h with ⟨h1, h2, h3⟩ | ⟨_, _, cs, b, h1, h2⟩
  · rcases h3 with ⟨_, h3⟩ | ⟨_, _, h3⟩
    · cases h3
    · rw [gather_isEmpty files hnd'] at h3
      have : files = [] := by simpa using h3
      subst this
      refine ⟨⟨[], ?_, rfl, fun f hf => by cases hf⟩, fun c hc => by rw [h2] at hc; cases hc⟩
      rw [h1, List.append_nil]
      exact (List.filter_eq_self.2 (fun _ _ => by simp)).symm
  · rcases h2 with ⟨_, _, _, h2⟩ | ⟨hb, h2⟩
    · cases h2
    · rw [hb] at h1
      obtain ⟨s1, s2, -⟩ := saveMacro_comps X { w with comps := cs } newName
      rw [h2] at s1 s2
      simp only at s1 s2
      rw [hg] at h1
      obtain ⟨new, i1, i2, i3⟩ := import_ok X _ _ _ (by rw [List.map_map]; exact hnd) h1
      refine ⟨⟨new, ?_, by rw [i2, List.map_map]; rfl, fun f hf => i3 (moduleName f, f) (List.mem_map.2 ⟨f, hf, rfl⟩)⟩, fun c hc => by rw [s2 c hc, s1]⟩
      rw [s1, i1, List.map_map]; rfl

/-- C103. If importing fails, at whatever point, nothing is saved. In any case there is at most one saving. -/
theorem C103_atomic (X : ExcelLib) (files : List Str) (w w' : Workbook) (newName : Option Str) (saves : List SaveCall) (ok : Bool)
    (h : importVba X files w newName = (w', saves, ok)) : (ok = false → saves = []) ∧ saves.length ≤ 1 := by
  rcases import_cases h with ⟨-, h2, -⟩ | ⟨_, _, cs, b, h1, h2⟩
  · rw [h2]; exact ⟨fun _ => rfl, Nat.zero_le _⟩
  · rcases h2 with ⟨_, _, h2, _⟩ | ⟨hb, h2⟩
    · rw [h2]; exact ⟨fun _ => rfl, Nat.zero_le _⟩
    · obtain ⟨-, -, s3, s4, -⟩ := saveMacro_comps X { w with comps := cs } newName
      rw [h2] at s3 s4
      exact ⟨s4, s3⟩

private theorem removeOld_docs (X : ExcelLib) (name : Str) : ∀ cs : List VbComp, (cs.map (fun c => X.fold c.name)).Nodup →
    (removeOld X cs name).all (fun c => decide (X.fold c.name ≠ X.fold name)) = true →
    ∀ c ∈ cs, c.type = 100 → X.fold c.name ≠ X.fold name
  | [], _, _, c, hc, _ => by cases hc
  | d :: cs, hnd, h, c, hc, ht => by
    rw [List.map_cons, List.nodup_cons] at hnd
    unfold removeOld at h
    by_cases e : X.fold d.name = X.fold name
    · rw [if_pos e] at h
      rcases List.mem_cons.1 hc with rfl | hc
      · rw [if_pos ht, List.all_cons] at h
        simp [e] at h
      · intro e'
        exact hnd.1 (by rw [e, ← e']; exact List.mem_map.2 ⟨c, hc, rfl⟩)
    · rw [if_neg e, List.all_cons, Bool.and_eq_true] at h
      rcases List.mem_cons.1 hc with rfl | hc
      · exact e
      · exact removeOld_docs X name cs hnd.2 h.2 c hc ht

private theorem import_fine (X : ExcelLib) : ∀ (ms : List (Str × Str)) (cs cs' : List VbComp),
    (cs.map (fun c => X.fold c.name)).Nodup → importVbaFiles X ms cs = (cs', true) →
    ∀ m ∈ ms, X.load m.2 ≠ none ∧ X.validName m.1 = true ∧ ∀ c ∈ cs, c.type = 100 → X.fold c.name ≠ X.fold m.1
  | [], _, _, _, _, m, hm => by cases hm
  | (name, file) :: ms, cs, cs', hnd, h, m, hm => by
    unfold importVbaFiles at h
    simp only at h
    split at h
    · injection h with _ h
      cases h
    · next n type code hl =>
      split at h
      · next hv =>
        rw [Bool.and_eq_true] at hv
        have hdoc := removeOld_docs X name cs hnd hv.2
        rw [removeOld_eq X name cs hv.2] at h
        rcases List.mem_cons.1 hm with rfl | hm
        · exact ⟨by rw [hl]; simp, hv.1, hdoc⟩
        · have ih := import_fine X ms _ _ (by
            rw [List.map_append]
            refine List.nodup_append.2 ⟨(List.filter_sublist.map _).nodup hnd, by simp, ?_⟩
            intro a ha b hb
            obtain ⟨c, hc, rfl⟩ := List.mem_map.1 ha
            simp only [List.map_cons, List.map_nil, List.mem_singleton] at hb
            rw [hb]
            exact of_decide_eq_true (List.mem_filter.1 hc).2) h m hm
          exact ⟨ih.1, ih.2.1, fun c hc ht => ih.2.2 c (List.mem_append_left _ (List.mem_filter.2 ⟨hc, decide_eq_true (hdoc c hc ht)⟩)) ht⟩
      · injection h with _ h
        cases h

/-- C103. A file that Excel cannot read, or that has no valid name for a module, or is called like a sheet, makes importing fail. -/
theorem C103_refused (X : ExcelLib) (files : List Str) (w : Workbook) (newName : Option Str)
    (hnd : (files.map moduleName).Nodup) (hw : (w.comps.map (fun c => X.fold c.name)).Nodup) (f : Str) (hf : f ∈ files)
    (hbad : X.load f = none ∨ X.validName (moduleName f) = false ∨
      ∃ c ∈ w.comps, c.type = 100 ∧ X.fold c.name = X.fold (moduleName f)) :
    (importVba X files w newName).2.2 = false := by
  have hg : gatherFiles files = files.map (fun f => (moduleName f, f)) := by
    rw [gatherFiles, gather_nodup files [] hnd (fun _ _ => by simp)]; rfl
  cases hok : (importVba X files w newName).2.2 with
  | false => rfl
  | true =>
    exfalso
    have h : importVba X files w newName = ((importVba X files w newName).1, (importVba X files w newName).2.1, true) := by
      rw [← hok]
    rcases import_cases h with ⟨h1, h2, h3⟩ | ⟨_, _, cs, b, h1, h2⟩
    · rcases h3 with ⟨_, h3⟩ | ⟨_, _, h3⟩
      · cases h3
      · rw [hg] at h3
        cases files with
        | nil => cases hf
        | cons _ _ => simp at h3
    · rcases h2 with ⟨_, _, _, h2⟩ | ⟨hb, h2⟩
      · cases h2
      · rw [hb, hg] at h1
        obtain ⟨g1, g2, g3⟩ := import_fine X _ _ _ hw h1 (moduleName f, f) (List.mem_map.2 ⟨f, hf, rfl⟩)
        rcases hbad with hbad | hbad | ⟨c, hc, ht, he⟩
        · exact g1 hbad
        · rw [g2] at hbad; cases hbad
        · exact g3 c hc ht he

/-- Some Excel: names are compared in lower case, files hold a module each (other than those called `bad`), and saving in the folder
`full` fails. -/
def someExcel : ExcelLib where
  fold := lower
  load f := if endsWith "bad.vba".toList f then none else some ("Module".toList, 1, f)
  freeName ns n := n ++ natStr ns.length
  validName n := n ≠ []
  saves c := match c with
    | .save _ => true
    | .saveAs p _ => !startsWith "full".toList p
  cwd := "C:".toList

/-- A workbook with a sheet and two modules. -/
def someBook : Workbook :=
  ⟨"C:\\d".toList, "b.xlsx".toList, false, [⟨"Sheet1".toList, 100, []⟩, ⟨"Foo".toList, 1, "old".toList⟩, ⟨"Bar".toList, 1, "bar".toList⟩], true⟩

example : (["x/foo.vba".toList, "new.vba".toList].map (fun f => someExcel.fold (moduleName f))).Nodup ∧
    importVba someExcel ["x/foo.vba".toList, "new.vba".toList] someBook none =
      ({ someBook with comps := [⟨"Sheet1".toList, 100, []⟩, ⟨"Bar".toList, 1, "bar".toList⟩, ⟨"foo".toList, 1, "x/foo.vba".toList⟩,
          ⟨"new".toList, 1, "new.vba".toList⟩] },
        [.saveAs "C:\\d\\b.xlsx.xlsm".toList [⟨"Sheet1".toList, 100, []⟩, ⟨"Bar".toList, 1, "bar".toList⟩,
          ⟨"foo".toList, 1, "x/foo.vba".toList⟩, ⟨"new".toList, 1, "new.vba".toList⟩]], true) := by decide +kernel

example : (["x/foo.vba".toList, "bad.vba".toList, "sheet1.vba".toList].map moduleName).Nodup ∧
    (someBook.comps.map (fun c => someExcel.fold c.name)).Nodup ∧ someExcel.load "bad.vba".toList = none ∧
    someExcel.fold "Sheet1".toList = someExcel.fold (moduleName "sheet1.vba".toList) := by decide +kernel

/-- C103 is violated: of two files with the same name in different folders, only the last is imported, and nothing is reported. -/
theorem C103_same_name_refuted :
    (importVba someExcel ["x/foo.vba".toList, "y/foo.vba".toList] someBook none).2.2 = true ∧
    someExcel.load "x/foo.vba".toList = some ("Module".toList, 1, "x/foo.vba".toList) ∧
    ∀ c ∈ (importVba someExcel ["x/foo.vba".toList, "y/foo.vba".toList] someBook none).1.comps, c.code ≠ "x/foo.vba".toList := by
  decide +kernel

/-- C103 is violated: when a file cannot be imported, the module of that name that was there is lost from the open workbook. -/
theorem C103_lost_refuted :
    (importVba someExcel ["bad.vba".toList] { someBook with comps := [⟨"Bad".toList, 1, "old".toList⟩] } none).2.2 = false ∧
    (importVba someExcel ["bad.vba".toList] { someBook with comps := [⟨"Bad".toList, 1, "old".toList⟩] } none).1.comps = [] := by
  decide +kernel

/-! ### Saving -/

private theorem toNat_ofNat' {n : Nat} (h : n.isValidChar) : (Char.ofNat n).toNat = n := by
  simp only [Char.ofNat, h, dif_pos]
  rfl

private theorem lower_last {s : Str} (c : Char) (h : (lower s).getLast? = some c) : ∃ d, s.getLast? = some d ∧ lowerChar d = c := by
  unfold lower at h
  rw [List.getLast?_map] at h
  cases hs : s.getLast? with
  | none => rw [hs] at h; cases h
  | some d => rw [hs] at h; exact ⟨d, rfl, by simpa using h⟩

private theorem fullName_tail (w : Workbook) (cs : List VbComp) (h1 : '/' ∉ w.name) (h2 : '\\' ∉ w.name) :
    ntTail ({ w with comps := cs } : Workbook).fullName = w.name := by
  unfold Workbook.fullName
  split
  · exact ntTail_plain h1 h2
  · exact ntTail_sep _ _ _ (by decide) h1 h2

/-- The files are imported: the workbook with new components that is then saved. -/
private theorem saved_of_ok {X : ExcelLib} {files : List Str} {w w' : Workbook} {newName : Option Str} {saves : List SaveCall}
    (hf : files ≠ []) (h : importVba X files w newName = (w', saves, true)) :
    ∃ cs, saveMacroEnabled X { w with comps := cs } newName = (w', saves, true) ∧ w'.comps = cs := by
  have hne : (gatherFiles files).isEmpty = false := by
    have grow : ∀ (fs : List Str) (acc : List (Str × Str)), acc ≠ [] → fs.foldl (fun acc f => dset acc (moduleName f) f) acc ≠ [] := by
      intro fs
      induction fs with
      | nil => exact fun _ h => h
      | cons f t ih =>
        intro acc _
        refine ih _ ?_
        cases acc with
        | nil => simp [dset]
        | cons kv t => simp only [dset]; split <;> simp
    cases files with
    | nil => exact absurd rfl hf
    | cons f t =>
      have := grow t [(moduleName f, f)] (by simp)
      cases hg : gatherFiles (f :: t) with
      | nil => exact absurd hg this
      | cons _ _ => rfl
  rcases import_cases h with ⟨h1, h2, h3⟩ | ⟨_, _, cs, b, h1, h2⟩
  · rcases h3 with ⟨_, h3⟩ | ⟨_, _, h3⟩
    · cases h3
    · rw [hne] at h3; cases h3
  · rcases h2 with ⟨_, _, _, h2⟩ | ⟨hb, h2⟩
    · cases h2
    · refine ⟨cs, h2, ?_⟩
      have := (saveMacro_comps X { w with comps := cs } newName).1
      rw [h2] at this
      exact this

/-- C104. A workbook that was updated without error is saved under the new name, if one is given. -/
theorem C104_named (X : ExcelLib) (files : List Str) (w w' : Workbook) (n : Str) (saves : List SaveCall) (hf : files ≠ []) (hn : n ≠ [])
    (h : importVba X files w (some n) = (w', saves, true)) : saves = [.saveAs n w'.comps] := by
  obtain ⟨cs, hs, rfl⟩ := saved_of_ok hf h
  unfold saveMacroEnabled at hs
  rw [if_neg (by simp [hn])] at hs
  simp only [saveWorkbook, if_pos hn] at hs
  obtain ⟨-, -, -, -, s5, -⟩ := saveQuietly_comps X { w with comps := w'.comps } n
  rw [hs] at s5
  exact (s5 rfl).1

/-- C104. Without a new name, a macro-enabled workbook that was saved before is saved in place. -/
theorem C104_in_place (X : ExcelLib) (files : List Str) (w w' : Workbook) (saves : List SaveCall) (hf : files ≠ [])
    (hp : w.path ≠ []) (h1 : '/' ∉ w.name) (h2 : '\\' ∉ w.name) (hm : MacroEnabled w.name)
    (h : importVba X files w none = (w', saves, true)) : saves = [.save w'.comps] := by
  obtain ⟨cs, hs, rfl⟩ := saved_of_ok hf h
  obtain ⟨stem, ext, hname, hstem, hext⟩ := hm
  have hlast : (lower ext).getLast? = some 'm' ∧ '.' ∉ lower ext := by
    simp only [List.mem_cons, List.not_mem_nil, or_false] at hext
    rcases hext with e | e | e <;> rw [e] <;> decide
  have hdot : '.' ∉ ext := fun hd => hlast.2 (List.mem_map.2 ⟨'.', hd, by decide⟩)
  have hx : ntExt ({ w with comps := w'.comps } : Workbook).fullName = '.' :: ext :=
    ntExt_dot (by rw [fullName_tail w _ h1 h2]; exact hname) hstem hdot
  have hl : (lower ('.' :: ext)).getLast? = some 'm' := by
    show (lowerChar '.' :: lower ext).getLast? = _
    cases he : lower ext with
    | nil => rw [he] at hlast; simp at hlast
    | cons a t => rw [List.getLast?_cons_cons, ← he]; exact hlast.1
  unfold saveMacroEnabled at hs
  rw [if_pos (.inl rfl), hx, if_neg (by rw [hl]; simp)] at hs
  simp only [saveWorkbook, if_pos hp] at hs
  split at hs
  · injection hs with _ hs
    injection hs with hs _
    exact hs.symm
  · injection hs with _ hs
    injection hs with _ hs
    cases hs

private theorem ntJoin_iff (folder name file : Str) : file = ntJoin folder name ↔ FileIn folder name file := by
  rcases List.eq_nil_or_concat folder with rfl | ⟨f, c, rfl⟩
  · constructor
    · rintro rfl; exact .here _
    · intro h
      generalize hk : ([] : Str) = k at h
      cases h with
      | here => rfl
      | ended => simp at hk
      | below => simp at hk
  · have hj : ntJoin (f ++ [c]) name = if ntSep c || c == ':' then f ++ [c] ++ name else f ++ [c] ++ '\\' :: name := by
      unfold ntJoin; rw [List.getLast?_concat]
    rw [List.concat_eq_append, hj]
    by_cases hs : c = '/' ∨ c = '\\' ∨ c = ':'
    · rw [if_pos (by rcases hs with rfl | rfl | rfl <;> decide)]
      constructor
      · rintro rfl
        have := FileIn.ended f c name hs
        simpa using this
      · intro h
        generalize hk : f ++ [c] = k at h
        cases h with
        | here => simp at hk
        | ended f' sep => simp
        | below f' c' _ g1 g2 g3 =>
          obtain ⟨rfl, e⟩ := List.append_inj' hk rfl
          injection e with e
          subst e
          rcases hs with e | e | e <;> simp_all
    · have hn : ¬ (ntSep c || c == ':') = true := by
        intro h
        simp only [ntSep, Bool.or_eq_true, beq_iff_eq] at h
        exact hs (by rcases h with (h | h) | h <;> simp [h])
      rw [if_neg hn]
      constructor
      · rintro rfl
        have := FileIn.below f c name (fun e => hs (.inl e)) (fun e => hs (.inr (.inl e))) (fun e => hs (.inr (.inr e)))
        simpa using this
      · intro h
        generalize hk : f ++ [c] = k at h
        cases h with
        | here => simp at hk
        | ended f' sep _ g =>
          obtain ⟨rfl, e⟩ := List.append_inj' hk rfl
          injection e with e
          subst e
          exact absurd g hs
        | below f' c' => simp_all

/-- C104. Without a new name, a workbook that was never saved but has the name of a macro-enabled one is saved in the current folder. -/
theorem C104_unsaved (X : ExcelLib) (files : List Str) (w w' : Workbook) (saves : List SaveCall) (hf : files ≠ [])
    (hp : w.path = []) (h1 : '/' ∉ w.name) (h2 : '\\' ∉ w.name) (hm : MacroEnabled w.name)
    (h : importVba X files w none = (w', saves, true)) :
    ∃ file, FileIn X.cwd w.name file ∧ saves = [.saveAs file w'.comps] := by
  obtain ⟨cs, hs, rfl⟩ := saved_of_ok hf h
  obtain ⟨stem, ext, hname, hstem, hext⟩ := hm
  have hlast : (lower ext).getLast? = some 'm' ∧ '.' ∉ lower ext := by
    simp only [List.mem_cons, List.not_mem_nil, or_false] at hext
    rcases hext with e | e | e <;> rw [e] <;> decide
  have hdot : '.' ∉ ext := fun hd => hlast.2 (List.mem_map.2 ⟨'.', hd, by decide⟩)
  have hx : ntExt ({ w with comps := w'.comps } : Workbook).fullName = '.' :: ext :=
    ntExt_dot (by rw [fullName_tail w _ h1 h2]; exact hname) hstem hdot
  have hl : (lower ('.' :: ext)).getLast? = some 'm' := by
    show (lowerChar '.' :: lower ext).getLast? = _
    cases he : lower ext with
    | nil => rw [he] at hlast; simp at hlast
    | cons a t => rw [List.getLast?_cons_cons, ← he]; exact hlast.1
  unfold saveMacroEnabled at hs
  rw [if_pos (.inl rfl), hx, if_neg (by rw [hl]; simp)] at hs
  simp only [saveWorkbook, hp, ne_eq, not_true_eq_false, if_false] at hs
  obtain ⟨-, -, -, -, s5, -⟩ := saveQuietly_comps X { w with comps := w'.comps } (ntJoin X.cwd w.name)
  refine ⟨_, (ntJoin_iff _ _ _).1 rfl, ?_⟩
  rw [← hp] at hs
  rw [hs] at s5
  exact (s5 rfl).1

/-- C104. Without a new name, a workbook whose name does not end like that of a macro-enabled one is left alone, and a macro-enabled copy
is saved beside it. -/
theorem C104_copied (X : ExcelLib) (files : List Str) (w w' : Workbook) (saves : List SaveCall) (hf : files ≠ [])
    (h1 : '/' ∉ w.name) (h2 : '\\' ∉ w.name)
    (hm : (∃ stem ext, w.name = stem ++ '.' :: ext ∧ (∃ c ∈ stem, c ≠ '.') ∧ '.' ∉ ext ∧ ext.getLast? ≠ some 'm' ∧ ext.getLast? ≠ some 'M') ∨
      '.' ∉ w.name)
    (newName : Option Str) (hn : newName = none ∨ newName = some [])
    (h : importVba X files w newName = (w', saves, true)) : saves = [.saveAs (w.fullName ++ ".xlsm".toList) w'.comps] := by
  obtain ⟨cs, hs, rfl⟩ := saved_of_ok hf h
  have hl : (lower (ntExt ({ w with comps := w'.comps } : Workbook).fullName)).getLast? ≠ some 'm' := by
    rcases hm with ⟨stem, ext, hname, hstem, hdot, m1, m2⟩ | hno
    · rw [ntExt_dot (by rw [fullName_tail w _ h1 h2]; exact hname) hstem hdot]
      intro hl
      obtain ⟨d, hd, hd'⟩ := lower_last 'm' hl
      cases ext with
      | nil =>
        rw [List.getLast?_singleton] at hd
        injection hd with hd
        rw [← hd] at hd'
        exact absurd hd' (by decide)
      | cons a t =>
        rw [List.getLast?_cons_cons] at hd
        have : d = 'm' ∨ d = 'M' := by
          unfold lowerChar at hd'
          split at hd'
          · next hr =>
            right
            have e := congrArg Char.toNat hd'
            have hv : (d.toNat + 0x20).isValidChar := Or.inl (by omega)
            rw [toNat_ofNat' hv] at e
            have : d.toNat = 'M'.toNat := by
              have : 'm'.toNat = 109 := rfl
              have : 'M'.toNat = 77 := rfl
              omega
            rw [← Char.ofNat_toNat d, this]
            rfl
          · exact .inl hd'
        rcases this with rfl | rfl
        · exact m1 hd
        · exact m2 hd
    · have : ntExt ({ w with comps := w'.comps } : Workbook).fullName = [] := by
        unfold ntExt
        simp only [fullName_tail w _ h1 h2]
        rw [if_neg]
        simp [hno]
      rw [this]
      simp [lower]
  unfold saveMacroEnabled at hs
  rw [if_pos hn, if_pos hl] at hs
  have hne : ({ w with comps := w'.comps } : Workbook).fullName ++ ".xlsm".toList ≠ [] := by simp
  simp only [saveWorkbook, if_pos hne] at hs
  obtain ⟨-, -, -, -, s5, -⟩ := saveQuietly_comps X { w with comps := w'.comps } (w.fullName ++ ".xlsm".toList)
  have e : ({ w with comps := w'.comps } : Workbook).fullName = w.fullName := rfl
  rw [e] at hs
  rw [hs] at s5
  exact (s5 rfl).1

example : ∃ stem ext, someBook.name = stem ++ '.' :: ext ∧ (∃ c ∈ stem, c ≠ '.') ∧ '.' ∉ ext ∧ ext.getLast? ≠ some 'm' ∧
    ext.getLast? ≠ some 'M' :=
  ⟨"b".toList, "xlsx".toList, rfl, ⟨'b', by decide, by decide⟩, by decide, by decide, by decide⟩

/-- The workbook with another name. -/
def namedBook (name : Str) : Workbook := { someBook with name := name }

example : MacroEnabled "b.XLSM".toList := ⟨"b".toList, "XLSM".toList, rfl, ⟨'b', by decide, by decide⟩, by decide⟩

example : (importVba someExcel ["n.vba".toList] (namedBook "b.xlsm".toList) none).2 =
    ([.save (someBook.comps ++ [⟨"n".toList, 1, "n.vba".toList⟩])], true) := by decide +kernel

example : (importVba someExcel ["n.vba".toList] { namedBook "b.xlsm".toList with path := [] } none).2 =
    ([.saveAs "C:b.xlsm".toList (someBook.comps ++ [⟨"n".toList, 1, "n.vba".toList⟩])], true) := by decide +kernel

/-- C104 is violated: with an empty new name, a macro-enabled workbook is not saved at all, without error. -/
theorem C104_empty_refuted : MacroEnabled (namedBook "b.xlsm".toList).name ∧
    (importVba someExcel ["n.vba".toList] (namedBook "b.xlsm".toList) (some [])).2 = ([], true) :=
  ⟨⟨"b".toList, "xlsm".toList, rfl, ⟨'b', by decide, by decide⟩, by decide⟩, by decide +kernel⟩

/-- C104 is violated: a workbook in HTML is not macro-enabled, but is saved in place since its extension ends with an `m`. -/
theorem C104_html_refuted : ¬ MacroEnabled (namedBook "b.htm".toList).name ∧
    ∃ cs, (importVba someExcel ["n.vba".toList] (namedBook "b.htm".toList) none).2 = ([.save cs], true) := by
  refine ⟨?_, someBook.comps ++ [⟨"n".toList, 1, "n.vba".toList⟩], by decide +kernel⟩
  rintro ⟨stem, ext, h, -, he⟩
  have : lower (namedBook "b.htm".toList).name = lower stem ++ '.' :: lower ext := by rw [h]; simp [lower, lowerChar]
  simp only [List.mem_cons, List.not_mem_nil, or_false] at he
  have hl := congrArg List.length this
  have hx := congrArg (List.drop 2) this
  rcases he with e | e | e <;> rw [e] at this <;> (have h5 := congrArg List.reverse this) <;>
    simp [namedBook, lower, lowerChar] at h5

/-! ### Alerts -/

/-- C105. If Excel shows alerts before, it does so after importing, provided that it succeeds or that saving is not what fails. -/
theorem C105_alerts_partial (X : ExcelLib) (files : List Str) (w w' : Workbook) (newName : Option Str) (saves : List SaveCall) (ok : Bool)
    (ha : w.alerts = true) (hs : ok = true ∨ ∀ c, X.saves c = true) (h : importVba X files w newName = (w', saves, ok)) : w'.alerts = true := by
  rcases import_cases h with ⟨h1, -, -⟩ | ⟨_, _, cs, b, h1, h2⟩
  · rw [h1]; exact ha
  · rcases h2 with ⟨_, h2, _, _⟩ | ⟨hb, h2⟩
    · rw [h2]; exact ha
    · obtain ⟨-, -, -, -, s5, s6⟩ := saveMacro_comps X { w with comps := cs } newName
      rw [h2] at s5 s6
      have hok : ok = true := hs.elim id s6
      rcases s5 hok with s5 | s5
      · simp only at s5
        rw [s5]; exact ha
      · exact s5

example : someBook.alerts = true ∧ (importVba someExcel ["n.vba".toList] someBook none).2.2 = true := by decide +kernel

/-- C105 is violated: when saving fails, Excel is left without alerts. -/
theorem C105_alerts_refuted : someBook.alerts = true ∧
    (importVba someExcel ["n.vba".toList] someBook (some "full/b.xlsm".toList)).2.2 = false ∧
    (importVba someExcel ["n.vba".toList] someBook (some "full/b.xlsm".toList)).1.alerts = false := by decide +kernel

/-! ### Removing modules -/

private theorem consume_sound (x : Str) : ∀ it : List Str, (consumeIn x it).1 = true → x ∈ it
  | [], h => by cases h
  | y :: ys, h => by
    unfold consumeIn at h
    split at h
    · next e => rw [e]; simp
    · exact List.mem_cons_of_mem _ (consume_sound x ys h)

private theorem consume_sub (x : Str) : ∀ it : List Str, ∀ y ∈ (consumeIn x it).2, y ∈ it
  | [], y, h => by cases h
  | z :: ys, y, h => by
    unfold consumeIn at h
    split at h
    · exact List.mem_cons_of_mem _ h
    · exact List.mem_cons_of_mem _ (consume_sub x ys y h)

private theorem removeLoop_sub : ∀ (it : List Str) (cs : List VbComp), (removeLoop it cs).Sublist cs ∧
    cs.filter (fun c => decide (c.type ≠ 1 ∨ lower c.name ∉ it)) =
      (removeLoop it cs).filter (fun c => decide (c.type ≠ 1 ∨ lower c.name ∉ it))
  | it, [] => ⟨List.Sublist.refl _, rfl⟩
  | it, c :: cs => by
    have weak : ∀ it' : List Str, (∀ y ∈ it', y ∈ it) → cs.filter (fun c => decide (c.type ≠ 1 ∨ lower c.name ∉ it)) =
        (removeLoop it' cs).filter (fun c => decide (c.type ≠ 1 ∨ lower c.name ∉ it)) := by
      intro it' hsub
      have h := congrArg (List.filter (fun c : VbComp => decide (c.type ≠ 1 ∨ lower c.name ∉ it))) (removeLoop_sub it' cs).2
      rw [List.filter_filter, List.filter_filter] at h
      have e : ∀ l : List VbComp, l.filter (fun a => decide (a.type ≠ 1 ∨ lower a.name ∉ it) && decide (a.type ≠ 1 ∨ lower a.name ∉ it')) =
          l.filter (fun a => decide (a.type ≠ 1 ∨ lower a.name ∉ it)) := by
        intro l
        refine List.filter_congr (fun a _ => ?_)
        by_cases ha : a.type ≠ 1 ∨ lower a.name ∉ it
        · have : a.type ≠ 1 ∨ lower a.name ∉ it' := ha.imp_right (fun h h' => h (hsub _ h'))
          simp [ha, this]
        · simp [ha]
      rw [e, e] at h
      exact h
    unfold removeLoop
    split
    · next ht =>
      refine ⟨(removeLoop_sub it cs).1.cons_cons c, ?_⟩
      rw [List.filter_cons, List.filter_cons, (removeLoop_sub it cs).2]
    · next ht =>
      simp only
      split
      · next hc =>
        refine ⟨(removeLoop_sub _ cs).1.cons c, ?_⟩
        rw [List.filter_cons_of_neg (by
          have := consume_sound _ _ hc
          simp only [decide_eq_true_eq, not_or]
          exact ⟨ht, fun h => h this⟩)]
        exact weak _ (consume_sub _ _)
      · refine ⟨(removeLoop_sub _ cs).1.cons_cons c, ?_⟩
        rw [List.filter_cons, List.filter_cons, weak _ (consume_sub _ _)]

/-- C106. Only modules are removed, and if names are given only those with one of them (in any case); what is left is in the same order. -/
theorem C106_only (comps : List VbComp) (names : List Str) : (removeVbaModules comps names).Sublist comps ∧
    ∀ c ∈ comps, c.type ≠ 1 ∨ (names ≠ [] ∧ ∀ n ∈ names, lower n ≠ lower c.name) → c ∈ removeVbaModules comps names := by
  unfold removeVbaModules
  split
  · next hn =>
    refine ⟨List.filter_sublist, fun c hc h => List.mem_filter.2 ⟨hc, ?_⟩⟩
    rcases h with h | h
    · exact decide_eq_true h
    · exact absurd hn h.1
  · refine ⟨(removeLoop_sub _ comps).1, fun c hc h => ?_⟩
    have hm : c ∈ comps.filter (fun c => decide (c.type ≠ 1 ∨ lower c.name ∉ names.map lower)) := by
      refine List.mem_filter.2 ⟨hc, decide_eq_true (h.imp_right (fun h hm => ?_))⟩
      obtain ⟨n, hn, e⟩ := List.mem_map.1 hm
      exact h.2 n hn e
    rw [(removeLoop_sub _ comps).2] at hm
    exact (List.mem_filter.1 hm).1

/-- C106. Without names, all modules are removed. -/
theorem C106_all (comps : List VbComp) : ∀ c ∈ removeVbaModules comps [], c.type ≠ 1 := by
  intro c hc
  exact of_decide_eq_true (List.mem_filter.1 hc).2

private theorem removeLoop_nil : ∀ cs : List VbComp, removeLoop [] cs = cs
  | [] => rfl
  | c :: cs => by
    unfold removeLoop
    simp [consumeIn, removeLoop_nil cs]

private theorem removeLoop_first : ∀ (cs named rest : List VbComp),
    cs.filter (fun c => decide (c.type = 1)) = named ++ rest → ((named ++ rest).map (fun c => lower c.name)).Nodup →
    removeLoop (named.map (fun c => lower c.name)) cs =
      cs.filter (fun c => decide (c.type ≠ 1 ∨ lower c.name ∉ named.map (fun c => lower c.name)))
  | [], _, _, _, _ => rfl
  | c :: cs, named, rest, hm, hd => by
    by_cases ht : c.type = 1
    · cases named with
      | nil =>
        rw [List.map_nil, removeLoop_nil]
        exact (List.filter_eq_self.2 (fun _ _ => by simp)).symm
      | cons n named =>
        rw [List.filter_cons_of_pos (by simpa using ht), List.cons_append] at hm
        injection hm with e hm
        subst e
        rw [List.cons_append, List.map_cons, List.nodup_cons] at hd
        have ih := removeLoop_first cs named rest hm hd.2
        have e1 : removeLoop (((c :: named).map (fun c => lower c.name))) (c :: cs) = removeLoop (named.map (fun c => lower c.name)) cs := by
          simp [removeLoop, consumeIn, ht]
        rw [e1, ih, List.filter_cons_of_neg (by simp [ht])]
        refine List.filter_congr (fun a ha => decide_eq_decide.2 ?_)
        by_cases h1 : a.type = 1
        · have : lower a.name ≠ lower c.name := by
            intro e
            refine hd.1 (e ▸ List.mem_map.2 ⟨a, ?_, rfl⟩)
            rw [← hm]
            exact List.mem_filter.2 ⟨ha, decide_eq_true h1⟩
          simp [h1, this]
        · simp [h1]
    · rw [List.filter_cons_of_neg (by simpa using ht)] at hm
      rw [List.filter_cons_of_pos (by simp [ht]), ← removeLoop_first cs named rest hm hd]
      simp [removeLoop, ht]

/-- C106. Modules are removed, and no others, if they are the first ones and named in their order. -/
theorem C106_first_partial (comps : List VbComp) (named rest : List VbComp) (names : List Str) (hn : names ≠ [])
    (hm : comps.filter (fun c => decide (c.type = 1)) = named ++ rest) (he : names.map lower = named.map (fun c => lower c.name))
    (hd : ((named ++ rest).map (fun c => lower c.name)).Nodup) :
    removeVbaModules comps names = comps.filter (fun c => decide (c.type ≠ 1 ∨ ∀ n ∈ names, lower n ≠ lower c.name)) := by
  unfold removeVbaModules
  rw [if_neg hn, he, removeLoop_first comps named rest hm hd, ← he]
  refine List.filter_congr (fun c _ => decide_eq_decide.2 (or_congr Iff.rfl ?_))
  simp only [List.mem_map, not_exists, not_and]

example : ∃ named rest, someBook.comps.filter (fun c => decide (c.type = 1)) = named ++ rest ∧
    ["FOO".toList].map lower = named.map (fun c => lower c.name) ∧ ((named ++ rest).map (fun c => lower c.name)).Nodup ∧
    removeVbaModules someBook.comps ["FOO".toList] = [⟨"Sheet1".toList, 100, []⟩, ⟨"Bar".toList, 1, "bar".toList⟩] :=
  ⟨[⟨"Foo".toList, 1, "old".toList⟩], [⟨"Bar".toList, 1, "bar".toList⟩], by decide +kernel, by decide +kernel, by decide +kernel, by decide +kernel⟩

/-- C106 is violated: modules before the named one use up the names. -/
theorem C106_named_refuted : ∃ c ∈ removeVbaModules someBook.comps ["bar".toList], c.type = 1 ∧ lower c.name = "bar".toList :=
  ⟨⟨"Bar".toList, 1, "bar".toList⟩, by decide +kernel, rfl, by decide⟩

/-! ### The command line -/

private theorem importArgs_iff (a : Str) (rest : List Str) (wildcard : Str) (book newName : Option Str) :
    importArgs a rest = .imports wildcard book newName ↔
      rest = book.toList ++ newName.toList ∧ (book = none → newName = none) ∧ wildcard = a := by
  constructor
  · intro h
    unfold importArgs at h
    split at h
    · injection h with h1 h2 h3; subst h1 h2 h3; simp
    · injection h with h1 h2 h3; subst h1 h2 h3; simp
    · injection h with h1 h2 h3; subst h1 h2 h3; simp
    · cases h
  · rintro ⟨h1, h2, rfl⟩
    cases book with
    | none => rw [h2 rfl] at h1 ⊢; rw [h1]; rfl
    | some b => cases newName <;> rw [h1] <;> rfl

/-- C107. Files are imported when there are one to three arguments and the first is no option, or the option `--pandalone`, which stands for
the files of the package; the others are the workbook and its new name. -/
theorem C107_command (dir : Str) (argv : List Str) (wildcard : Str) (book newName : Option Str) :
    vbaMain dir argv = .imports wildcard book newName ↔
      ∃ cmd first, argv = cmd :: first :: (book.toList ++ newName.toList) ∧ (book = none → newName = none) ∧
        ((first = "--pandalone".toList ∧ FileIn dir "*.vba".toList wildcard) ∨ ((¬ ∃ s, first = '-' :: '-' :: s) ∧ wildcard = first)) := by
  have hopt : ∀ a : Str, startsWith "--".toList a = true ↔ ∃ s, a = '-' :: '-' :: s := by
    intro a
    unfold startsWith
    rw [List.isPrefixOf_iff_prefix]
    constructor
    · rintro ⟨s, hs⟩; exact ⟨s, hs.symm⟩
    · rintro ⟨s, hs⟩; exact ⟨s, hs.symm⟩
  match argv with
  | [] =>
    constructor
    · intro h; cases h
    · rintro ⟨_, _, h, -⟩; cases h
  | [x] =>
    constructor
    · intro h; cases h
    · rintro ⟨_, _, h, -⟩; cases h
  | c :: a :: rest =>
    simp only [vbaMain]
    split
    · next ha =>
      rw [importArgs_iff]
      constructor
      · rintro ⟨h1, h2, h3⟩
        exact ⟨c, a, by rw [h1], h2, .inl ⟨ha, (ntJoin_iff _ _ _).1 h3⟩⟩
      · rintro ⟨c', a', h1, h2, h3⟩
        injection h1 with h1 h1'
        injection h1' with h1' h1''
        refine ⟨h1'', h2, ?_⟩
        rcases h3 with ⟨_, h3⟩ | ⟨h3, -⟩
        · exact (ntJoin_iff _ _ _).2 h3
        · exact absurd ⟨_, by rw [← h1', ha]; rfl⟩ h3
    · next ha =>
      split
      · next hs =>
        constructor
        · intro h; cases h
        · rintro ⟨c', a', h1, h2, h3⟩
          injection h1 with h1 h1'
          injection h1' with h1' h1''
          rcases h3 with ⟨h3, _⟩ | ⟨h3, -⟩
          · exact absurd (h1'.trans h3) ha
          · exact absurd ((hopt a).1 hs) (by rw [h1']; exact h3)
      · next hs =>
        rw [importArgs_iff]
        constructor
        · rintro ⟨h1, h2, h3⟩
          exact ⟨c, a, by rw [h1], h2, .inr ⟨fun h => hs ((hopt a).2 h), h3⟩⟩
        · rintro ⟨c', a', h1, h2, h3⟩
          injection h1 with h1 h1'
          injection h1' with h1' h1''
          refine ⟨h1'', h2, ?_⟩
          rcases h3 with ⟨h3, _⟩ | ⟨_, h3⟩
          · exact absurd (h1'.trans h3) ha
          · rw [h3, h1']

/-- C107. A workbook that is named is the one that is opened, otherwise it is the active one; an empty name names none. -/
theorem C107_book (openBook : Str → Option Workbook) (active : Option Workbook) (book : Option Str) (w : Workbook) :
    chooseBook openBook active book = some w ↔
      (∃ c s, book = some (c :: s) ∧ openBook (c :: s) = some w) ∨ ((book = none ∨ book = some []) ∧ active = some w) := by
  rcases book with _ | _ | ⟨c, s⟩
  · simp [chooseBook]
  · simp [chooseBook]
  · constructor
    · exact fun h => .inl ⟨c, s, rfl, h⟩
    · rintro (⟨c', s', h, h'⟩ | ⟨h | h, -⟩)
      · injection h with h
        rw [← h] at h'
        exact h'
      · cases h
      · cases h

example : vbaMain "pkg".toList ["cmd".toList, "--pandalone".toList, "inp.xls".toList] = .imports "pkg\\*.vba".toList (some "inp.xls".toList) none ∧
    vbaMain "pkg".toList ["cmd".toList, "--help".toList] = .exits := by decide +kernel
end Props
