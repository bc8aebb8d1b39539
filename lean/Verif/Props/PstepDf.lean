import Verif.Spec.PstepDf
import Verif.Props.PstepTuples
/-
C100: steps made from a dataframe.
-/
set_option linter.unusedSimpArgs false
namespace Props
open Py Model Spec Lemmas

/-! ### Storing mappings on the heap -/

private theorem denAll_ext {h h' : List PmodObj} (e : Ext h h') : ∀ (rs : List (Str × Nat)) (ts : List (Str × Pmod)),
    DenAll h rs ts → DenAll h' rs ts
  | _, _, .nil => .nil
  | _, _, .cons k r t rs ts d ds => .cons k r t rs ts (den_ext e d) (denAll_ext e rs ts ds)

mutual
private theorem storePmod_den : ∀ (p : Pmod) (h : List PmodObj), Ext h (storePmod h p).1 ∧ Den (storePmod h p).1 (storePmod h p).2 p
  | .mk a s r, h => by
    obtain ⟨e1, d1⟩ := storePmods_den s h
    obtain ⟨e2, d2⟩ := storePmods_den r (storePmods h s).1
    have e3 := Ext.snoc (storePmods (storePmods h s).1 r).1 ⟨a, (storePmods h s).2, (storePmods (storePmods h s).1 r).2⟩
    simp only [storePmod]
    refine ⟨(e1.trans e2).trans e3, ?_⟩
    exact Den.mk _ ⟨a, (storePmods h s).2, (storePmods (storePmods h s).1 r).2⟩ s r List.getElem?_concat_length
      (denAll_ext (e2.trans e3) _ _ d1) (denAll_ext e3 _ _ d2)
private theorem storePmods_den : ∀ (l : List (Str × Pmod)) (h : List PmodObj),
    Ext h (storePmods h l).1 ∧ DenAll (storePmods h l).1 (storePmods h l).2 l
  | [], h => ⟨Ext.refl _, .nil⟩
  | (k, p) :: t, h => by
    obtain ⟨e1, d1⟩ := storePmod_den p h
    obtain ⟨e2, d2⟩ := storePmods_den t (storePmod h p).1
    simp only [storePmods]
    exact ⟨e1.trans e2, .cons k _ p _ t (den_ext e2 d1) d2⟩
end

private theorem within_insert (t : Str) : ∀ (path : List Str) (n : Nat) (p : Pmod), path.length ≤ n → Within (n + 1) p →
    Within (n + 1) (p.insert t path)
  | [], n, .mk a s r, _, .mk _ _ _ _ h1 h2 => .mk n _ s r h1 h2
  | x :: path, 0, _, h, _ => by simp at h
  | x :: path, n + 1, .mk a s r, hl, .mk _ _ _ _ h1 h2 => by
    have hl : path.length ≤ n := by simpa using hl
    have hempty : Within (n + 1) Pmod.empty := .mk n none [] [] (by simp) (by simp)
    have hgot : ∀ (l : List (Str × Pmod)) k, (∀ kv ∈ l, Within (n + 1) kv.2) → Within (n + 1) ((dget l k).getD Pmod.empty) := by
      intro l k hl
      cases hg : dget l k with
      | none => exact hempty
      | some q => exact hl _ (mem_of_dget hg)
    rw [Pmod.insert]
    split
    · refine .mk _ a s _ h1 ?_
      intro kv hkv
      rcases List.mem_append.1 hkv with hkv | hkv
      · exact h2 kv (List.mem_filter.1 hkv).1
      · rw [List.mem_singleton] at hkv
        subst hkv
        exact within_insert t path n _ hl (hgot r _ h2)
    · refine .mk _ a _ r ?_ h2
      intro kv hkv
      rcases mem_dset_cases hkv with hkv | rfl
      · exact h1 kv hkv
      · exact within_insert t path n _ hl (hgot s _ h1)

/-! ### The mappings of the rows -/

section rows
variable {V : Type} (E : RegexLib) (rows : List (DfRow V))

private theorem valid_rows (h : ∀ r ∈ rows, r.path ≠ []) :
    validTuples (rows.map (fun r => (some r.path, some r.name))) = rows.map (fun r => (r.path, r.name)) := by
  induction rows with
  | nil => rfl
  | cons r rows ih =>
    have h1 := h r (by simp)
    have := ih (fun r hr => h r (by simp [hr]))
    simp only [validTuples, List.map_cons, List.filterMap_cons] at this ⊢
    rw [if_neg (fun e => h1 e.1), this]

private theorem keysOf_child {k : Str} (h : Plain k) : keysOf ('/' :: k) = [Key.name "".toList, Key.name k] := by
  have := keysOf_plain (q := [k]) (by intro x hx; rw [List.mem_singleton] at hx; subst hx; exact h)
  simpa [pathText, join] using this

private theorem lastSome_map {α β γ : Type} (g : α → β) (f : β → Option γ) (l : List α) :
    lastSome f (l.map g) = lastSome (fun x => f (g x)) l := by
  simp only [lastSome, ← List.map_reverse, List.findSome?_map]
  rfl

private theorem nextRegx_names : ∀ (p : List Str) (ks : List Key), nextRegx ks (p.map Key.name) = none
  | [], [] => rfl
  | [], _ :: _ => rfl
  | _ :: _, [] => rfl
  | x :: p, k :: ks => by
    rw [List.map_cons, nextRegx]
    split
    · exact nextRegx_names p ks
    · rfl

/-- Rows of children of the root, by names that are plain attributes. -/
private def ChildRows : Prop := ∀ r ∈ rows, ∃ k, r.path = '/' :: k ∧ k ≠ [] ∧ Plain k ∧ StepName k

variable {rows}

private theorem rows_pmods (h : ChildRows rows) : ∃ pm, pmodsFromTuples E (rows.map (fun r => (some r.path, some r.name))) = .ok pm ∧
    Within 3 pm ∧ (∀ ks, regxsAt pm ks = []) ∧ aliasAt pm [Key.name "".toList] = none ∧
    ∀ k, Plain k → aliasAt pm [Key.name "".toList, Key.name k] = lastName rows ('/' :: k) := by
  have hv := valid_rows rows (fun r hr e => by obtain ⟨k, h1, _⟩ := h r hr; rw [h1] at e; cases e)
  have hkeys : ∀ r ∈ rows, ∃ k, r.path = '/' :: k ∧ keysOf r.path = [Key.name "".toList, Key.name k] := by
    intro r hr
    obtain ⟨k, h1, _, h2, _⟩ := h r hr
    exact ⟨k, h1, by rw [h1]; exact keysOf_child h2⟩
  obtain ⟨pm, hpm⟩ := C14_total E (rows.map (fun r => (some r.path, some r.name))) (by
    intro ft hft p hp
    rw [hv] at hft
    obtain ⟨r, hr, rfl⟩ := List.mem_map.1 hft
    obtain ⟨k, _, e⟩ := hkeys r hr
    simp only [e, List.mem_cons, List.not_mem_nil, or_false] at hp
    rcases hp with hp | hp <;> cases hp)
  have hC14 := C14_alias_is_last_tuple E _ pm hpm
  rw [hv] at hC14
  refine ⟨pm, hpm, ?_, ?_, ?_, ?_⟩
  · rw [pmodsLoop_ok E _ _ _ hpm, hv]
    have : ∀ (l : List (DfRow V)) (p : Pmod), (∀ r ∈ l, r ∈ rows) → Within 3 p →
        Within 3 ((l.map (fun r => (r.path, r.name))).foldl (fun p ft => p.insert ft.2 (iterPartsRelaxed ft.1)) p) := by
      intro l
      induction l with
      | nil => intro p _ hp; exact hp
      | cons r l ih =>
        intro p hl hp
        refine ih _ (fun r hr => hl r (by simp [hr])) (within_insert _ _ 2 _ ?_ hp)
        obtain ⟨k, h1, h2⟩ := hkeys r (hl r (by simp))
        rw [keysOf_eq] at h2
        have := congrArg List.length h2
        rw [List.length_map] at this
        exact Nat.le_of_eq this
    exact this rows _ (fun _ h => h) (.mk 2 none [] [] (by simp) (by simp))
  · intro ks
    rw [C15_regex_order E _ pm hpm ks, hv]
    have : (rows.map (fun r => (r.path, r.name))).filterMap (fun ft => nextRegx ks (keysOf ft.1)) = [] := by
      rw [List.filterMap_eq_nil_iff]
      intro ft hft
      obtain ⟨r, hr, rfl⟩ := List.mem_map.1 hft
      obtain ⟨k, _, e⟩ := hkeys r hr
      simp only [e]
      exact nextRegx_names [_, _] ks
    rw [this]; rfl
  · rw [hC14, lastSome_map]
    unfold lastSome
    rw [List.findSome?_eq_none_iff]
    intro r hr
    obtain ⟨k, _, e⟩ := hkeys r (List.mem_reverse.1 hr)
    simp [e]
  · intro k hk
    rw [hC14, lastSome_map, lastName]
    unfold lastSome
    have : ∀ l : List (DfRow V), (∀ r ∈ l, r ∈ rows) →
        l.findSome? (fun r => if keysOf r.path = [Key.name "".toList, Key.name k] then some r.name else none) =
        l.findSome? (fun r => if r.path = '/' :: k then some r.name else none) := by
      intro l
      induction l with
      | nil => intro _; rfl
      | cons r l ih =>
        intro hl
        obtain ⟨k', h1, h2⟩ := hkeys r (hl r (by simp))
        rw [List.findSome?_cons, List.findSome?_cons, ih (fun r hr => hl r (by simp [hr])), h2, h1]
        simp
    exact this _ (fun r hr => List.mem_reverse.1 hr)
end rows
/-! ### Attributes -/

section attrs
variable {V : Type}

private theorem lastSome_append {α β : Type} (f : α → Option β) (xs ys : List α) :
    lastSome f (xs ++ ys) = (lastSome f ys).or (lastSome f xs) := by
  simp only [lastSome, List.reverse_append, List.findSome?_append]

private theorem dget_setAttrs (c : Nat) (vals : List (Str × V)) : ∀ (attrs : StepAttrs V) (c' : Nat) (col : Str),
    dget (setAttrs attrs c vals) (c', col) =
      (if c' = c then lastSome (fun kv => if kv.1 = col then some kv.2 else none) vals else none).or (dget attrs (c', col)) := by
  induction vals with
  | nil => intro attrs c' col; simp [setAttrs, lastSome]
  | cons kv vals ih =>
    intro attrs c' col
    have := ih (dset attrs (c, kv.1) kv.2) c' col
    rw [show setAttrs attrs c (kv :: vals) = setAttrs (dset attrs (c, kv.1) kv.2) c vals from rfl, this, dget_dset,
      show kv :: vals = [kv] ++ vals from rfl, lastSome_append]
    by_cases e : c' = c
    · subst e
      simp only [if_true, Prod.mk.injEq, true_and, Option.or_assoc]
      by_cases e2 : col = kv.1
      · subst e2; simp [lastSome]
      · simp [lastSome, e2, Ne.symm e2]
    · simp [e]

private theorem lastCell_snoc (rows : List (DfRow V)) (r : DfRow V) (path col : Str) : lastCell (rows ++ [r]) path col =
    (if r.path = path then lastSome (fun kv => if kv.1 = col then some kv.2 else none) r.vals else none).or (lastCell rows path col) := by
  unfold lastCell dfCells
  rw [List.flatMap_append, lastSome_append, List.flatMap_cons, List.flatMap_nil, List.append_nil, lastSome_map]
  congr 1
  by_cases e : r.path = path
  · simp only [e, true_and, if_true]
  · simp [e, lastSome]

private theorem lastCell_none {rows : List (DfRow V)} {path col : Str} (h : ∀ r ∈ rows, r.path ≠ path) : lastCell rows path col = none := by
  unfold lastCell lastSome
  rw [List.findSome?_eq_none_iff]
  intro x hx
  obtain ⟨r, hr, hx⟩ := List.mem_flatMap.1 (List.mem_reverse.1 hx)
  obtain ⟨kv, _, rfl⟩ := List.mem_map.1 hx
  rw [if_neg (fun e => h r hr e.1)]

/-- What holds after some rows. -/
private structure LoopInv (E : RegexLib) (t : Option Pmod) (done : List (DfRow V)) (σ : PsState) (attrs : StepAttrs V) : Prop where
  tidy : Tidy 3 E σ
  root : ∃ o, σ.steps[0]? = some o ∧ DenOpt σ.pmods o.pmod t ∧ o.name = "".toList
  kids : ∀ k, (∃ c, Edge σ 0 k c) ↔ ∃ r ∈ done, r.path = '/' :: k
  vals : ∀ c col v, dget attrs (c, col) = some v ↔ ∃ k, Edge σ 0 k c ∧ lastCell done ('/' :: k) col = some v

private theorem loop_step {F : Nat} {E : RegexLib} (hF : 3 ≤ F) {t : Option Pmod} (ht : ∀ x, t = some x → x.regxs = [])
    {done : List (DfRow V)} {σ : PsState} {attrs : StepAttrs V} (hi : LoopInv E t done σ attrs) (r : DfRow V) {k : Str}
    (hp : r.path = '/' :: k) (hk0 : k ≠ []) (hk : StepName k) :
    ∃ σ' c, getAttr F E σ 0 (r.path.drop 1) = (σ', .ok (some c)) ∧ LoopInv E t (done ++ [r]) σ' (setAttrs attrs c r.vals) := by
  obtain ⟨o, ho, hd, hn⟩ := hi.root
  obtain ⟨_, h2⟩ := getAttr_tidy hi.tidy hF hk hk0 ho hd
  obtain ⟨σ', c, g1, g2, g3, g4, _, g6, _, _, g9, g10, _⟩ := h2 _ _ (descend_plain E t ht k)
  have hkeep : ∀ l c', Edge σ 0 l c' → Edge σ' 0 l c' := by
    intro l c' he
    have := g10 0 [l] [c'] (.cons 0 l c' [] [] he (.nil _))
    cases this with
    | cons _ _ _ _ _ he _ => exact he
  refine ⟨σ', c, by rw [hp]; exact g1, g2, ?_, ?_, ?_⟩
  · obtain ⟨o', h1, h2, h3, _⟩ := g6 0 o ho
    exact ⟨o', h1, by rw [h2]; exact denOpt_ext g3 hd, by rw [h3, hn]⟩
  · intro l
    constructor
    · rintro ⟨c', he⟩
      rcases g9 0 l c' he with he | ⟨_, rfl, _⟩
      · obtain ⟨r', h1, h2⟩ := (hi.kids l).1 ⟨c', he⟩
        exact ⟨r', by simp [h1], h2⟩
      · exact ⟨r, by simp, hp⟩
    · rintro ⟨r', h1, h2⟩
      rcases List.mem_append.1 h1 with h1 | h1
      · obtain ⟨c', he⟩ := (hi.kids l).2 ⟨r', h1, h2⟩
        exact ⟨c', hkeep l c' he⟩
      · rw [List.mem_singleton] at h1
        subst h1
        rw [hp] at h2
        injection h2 with _ h2
        subst h2
        exact ⟨c, g4⟩
  · intro c' col v
    rw [dget_setAttrs]
    by_cases e : c' = c
    · subst e
      rw [if_pos rfl]
      -- what was there before
      have hold : dget attrs (c', col) = lastCell done ('/' :: k) col := by
        cases hg : dget attrs (c', col) with
        | some w =>
          obtain ⟨k', h1, h3⟩ := (hi.vals c' col w).1 hg
          obtain ⟨_, e⟩ := g2.parent _ _ _ _ _ (hkeep _ _ h1) g4
          rw [← e, h3]
        | none =>
          cases hl : lastCell done ('/' :: k) col with
          | none => rfl
          | some w =>
            exfalso
            have hm : ∃ r ∈ done, r.path = '/' :: k := by
              cases hx : done.any (fun r => decide (r.path = '/' :: k)) with
              | true =>
                obtain ⟨r, h1, h2⟩ := List.any_eq_true.1 hx
                exact ⟨r, h1, of_decide_eq_true h2⟩
              | false =>
                rw [lastCell_none (fun r hr e => by
                  have := List.any_eq_false.1 hx r hr
                  exact this (decide_eq_true e))] at hl
                cases hl
            obtain ⟨c2, he⟩ := (hi.kids k).2 hm
            have := edge_unique (hkeep _ _ he) g4
            subst this
            rw [(hi.vals c2 col w).2 ⟨k, he, hl⟩] at hg
            cases hg
      have hnew : ∀ k', Edge σ' 0 k' c' → k' = k := fun k' he => (g2.parent _ _ _ _ _ he g4).2
      rw [hold]
      constructor
      · intro h
        exact ⟨k, g4, by rw [lastCell_snoc, if_pos hp]; exact h⟩
      · rintro ⟨k', he, h⟩
        have := hnew k' he
        subst this
        rw [lastCell_snoc, if_pos hp] at h
        exact h
    · rw [if_neg e, Option.none_or, hi.vals]
      constructor
      · rintro ⟨k', he, h⟩
        refine ⟨k', hkeep _ _ he, ?_⟩
        rw [lastCell_snoc, if_neg, Option.none_or]
        · exact h
        · intro e2
          rw [hp] at e2
          injection e2 with _ e2
          subst e2
          exact e (edge_unique (hkeep _ _ he) g4)
      · rintro ⟨k', he, h⟩
        rcases g9 0 k' c' he with he' | ⟨_, rfl, e2⟩
        · refine ⟨k', he', ?_⟩
          rw [lastCell_snoc, if_neg, Option.none_or] at h
          · exact h
          · intro e2
            rw [hp] at e2
            injection e2 with _ e2
            subst e2
            exact e (edge_unique he g4)
        · exact absurd e2 e

private theorem loop_all {F : Nat} {E : RegexLib} (hF : 3 ≤ F) {t : Option Pmod} (ht : ∀ x, t = some x → x.regxs = []) :
    ∀ (rows done : List (DfRow V)) (σ : PsState) (attrs : StepAttrs V), LoopInv E t done σ attrs → ChildRows rows →
    ∃ σ' attrs', dfLoop F E 0 σ attrs rows = .ok (σ', attrs') ∧ LoopInv E t (done ++ rows) σ' attrs'
  | [], done, σ, attrs, hi, _ => ⟨σ, attrs, rfl, by rw [List.append_nil]; exact hi⟩
  | r :: rows, done, σ, attrs, hi, hr => by
    obtain ⟨k, h1, h2, _, h4⟩ := hr r (by simp)
    obtain ⟨σ1, c, g1, g2⟩ := loop_step hF ht hi r h1 h2 h4
    obtain ⟨σ2, attrs2, g3, g4⟩ := loop_all hF ht rows (done ++ [r]) σ1 _ g2 (fun r hr' => hr r (by simp [hr']))
    refine ⟨σ2, attrs2, ?_, by simpa using g4⟩
    rw [dfLoop, g1]
    exact g3
end attrs

private theorem zip_rows {V : Type} (E : RegexLib) {rows : List (DfRow V)} (h : ∀ r ∈ rows, r.path ≠ []) :
    pmodsFromZip E rows = pmodsFromTuples E (rows.map (fun r => (some r.path, some r.name))) := by
  have hb : ∀ r ∈ rows, r.blank = false := by
    intro r hr
    have := h r hr
    cases hp : r.path with
    | nil => exact absurd hp this
    | cons _ _ => simp [DfRow.blank, hp]
  have h1 : ∀ rs : List (DfRow V), (∀ r ∈ rs, r.blank = false) → rs.takeWhile (fun r => !r.blank) = rs := by
    intro rs
    induction rs with
    | nil => intro _; rfl
    | cons r rs ih =>
      intro h
      rw [List.takeWhile_cons, h r (by simp)]
      simp only [Bool.not_false, if_true]
      rw [ih (fun r hr => h r (by simp [hr]))]
  have h2 : rows.any DfRow.blank = false := List.any_eq_false.2 (fun r hr => by simp [hb r hr])
  rw [pmodsFromZip, h1 rows hb, h2]
  cases pmodsFromTuples E (rows.map (fun r => (some r.path, some r.name))) <;> rfl

/-- C100 (partial: the rows are those of children of the root, whose names are plain and name steps; see `C100_nested_refuted` and
`C100_method_refuted`). From a dataframe with such rows, in any number and with paths given more than once, the root step is
made, with the empty text. Its children are those named in the rows, and reading them from it afterwards finds them there. The text of a child is
the last name given to its path (unescaped; or the name of the child, if that is empty), its attributes are the last values given to its path in the columns, and no other
step has any. -/
theorem C100_rows_partial {V : Type} (F : Nat) (E : RegexLib) (rows : List (DfRow V)) (hF : 3 ≤ F)
    (hrows : ∀ r ∈ rows, ∃ k, r.path = '/' :: k ∧ k ≠ "".toList ∧ Plain k ∧ StepName k) :
    ∃ σ attrs s, pstepFromDf F E rows = .ok (σ, attrs, s) ∧ textOf σ s = some "".toList ∧
      (∀ k, (∃ c, Edge σ s k c) ↔ ∃ r ∈ rows, r.path = '/' :: k) ∧
      (∀ k c, Edge σ s k c → getAttr F E σ s k = (σ, .ok (some c)) ∧ textOf σ c = some (nameFor k (lastName rows ('/' :: k))) ∧
        ∀ col, dget attrs (c, col) = lastCell rows ('/' :: k) col) ∧
      ∀ c col v, dget attrs (c, col) = some v → ∃ k, Edge σ s k c := by
  obtain ⟨pm, hpm, hW, hreg, hroot, hal⟩ := rows_pmods E hrows
  obtain ⟨_, hden⟩ := storePmod_den pm []
  have hreg0 : ∀ x, some pm = some x → x.regxs = [] := by
    intro x hx
    injection hx with hx
    subst hx
    have := hreg []
    simpa [regxsAt, nodeAt] using this
  have hnode : ∀ k, (some pm).bind (fun p => dget p.steps k) = nodeAt pm [Key.name k] := by
    intro k
    simp only [Option.bind_some, nodeAt]
    cases dget pm.steps k <;> rfl
  have hdesc : pm.descend E "".toList = .ok (nodeAt pm [Key.name "".toList], none) := by
    have := descend_plain E (some pm) hreg0 "".toList
    rw [hnode, show (nodeAt pm [Key.name "".toList]).bind Pmod.alias = none from hroot] at this
    exact this
  obtain ⟨h', p', e1, e2, e3, e4⟩ := (descendH_den (F := F) (E := E) hden hW hF "".toList).2 _ _ hdesc
  have hstep : newStep F E ⟨(storePmod [] pm).1, [], []⟩ [] (.pmod (storePmod [] pm).2) none [] =
      (⟨h', [⟨"".toList, "".toList, p', none, canRelocate, []⟩], []⟩, .ok 0) := by
    rw [show ([] : Str) = "".toList from rfl]
    simp only [newStep, e1]
    rfl
  have ht : ∀ x, nodeAt pm [Key.name "".toList] = some x → x.regxs = [] := by
    intro x hx
    have := hreg [Key.name "".toList]
    unfold regxsAt at this
    rw [hx] at this
    simpa using this
  have hI0 : LoopInv (V := V) E (nodeAt pm [Key.name "".toList]) [] ⟨h', [⟨"".toList, "".toList, p', none, canRelocate, []⟩], []⟩ [] := by
    have hno : ∀ a k c, ¬ Edge ⟨h', [⟨"".toList, "".toList, p', none, canRelocate, []⟩], []⟩ a k c := by
      rintro a k c ⟨o, h1, h2⟩
      have := (List.getElem?_eq_some_iff.1 h1).1
      simp only [List.length_cons, List.length_nil] at this
      have : a = 0 := by omega
      subst this
      simp at h1
      subst h1
      simp [PsState.kids] at h2
    refine ⟨tidy_root rfl e3 e4, ⟨_, rfl, e3, rfl⟩, fun k => ?_, fun c col v => ?_⟩
    · exact ⟨fun ⟨c, he⟩ => absurd he (hno _ _ _), fun ⟨_, hr, _⟩ => by cases hr⟩
    · exact ⟨fun h => by simp at h, fun ⟨k, he, _⟩ => absurd he (hno _ _ _)⟩
  obtain ⟨σ, attrs, hloop, hI⟩ := loop_all (V := V) hF ht rows [] _ [] hI0 hrows
  rw [List.nil_append] at hI
  obtain ⟨o, ho, hd, hn⟩ := hI.root
  refine ⟨σ, attrs, 0, ?_, ?_, hI.kids, fun k c he => ?_, fun c col v h => ?_⟩
  · have hz := zip_rows E (rows := rows) (fun r hr => by
      obtain ⟨k, h1, _⟩ := hrows r hr
      rw [h1]
      exact List.cons_ne_nil _ _)
    simp only [pstepFromDf, hz, hpm, hstep, hloop]
  · simp only [textOf, ho, Option.map_some, hn]
  · obtain ⟨oc, t, t', al, l1, l2, l3, l4, l5, l6⟩ := hI.tidy.link 0 k c o he ho
    have := denOpt_unique l2 hd
    subst this
    obtain ⟨r, hr, hrk⟩ := (hI.kids k).1 ⟨c, he⟩
    obtain ⟨k', hk1, hk2, hk3, hk4⟩ := hrows r hr
    rw [hk1] at hrk
    injection hrk with _ hrk
    subst hrk
    refine ⟨?_, ?_, fun col => ?_⟩
    · obtain ⟨o', ho', hg⟩ := he
      rw [ho] at ho'; injection ho' with ho'; subst ho'
      rcases getAttr_cases (F := F) (E := E) hk4 ho with ⟨c', co, h1, _, _, h2⟩ | ⟨hno, _⟩
      · rw [hg] at h1; injection h1 with h1; subst h1; exact h2
      · exact absurd (hno c oc hg l1) l6
    · have hdk := descend_plain E _ ht k'
      rw [l3] at hdk
      injection hdk with hdk
      injection hdk with _ hdk
      have h2 : aliasAt pm [Key.name "".toList, Key.name k'] = al := by
        rw [hdk]
        simp only [aliasAt, nodeAt]
        cases dget pm.steps "".toList with
        | none => rfl
        | some q =>
          simp only [Option.bind_some]
          cases dget q.steps k' <;> rfl
      rw [textOf, l1, Option.map_some, l5, ← hal k' hk3, h2]
    · cases hg : dget attrs (c, col) with
      | some v =>
        obtain ⟨k2, h1, h2⟩ := (hI.vals c col v).1 hg
        have := (hI.tidy.parent _ _ _ _ _ h1 he).2
        subst this
        exact h2.symm
      | none =>
        cases hl : lastCell rows ('/' :: k') col with
        | none => rfl
        | some v =>
          rw [(hI.vals c col v).2 ⟨k', he, hl⟩] at hg
          cases hg
  · obtain ⟨k, h1, _⟩ := (hI.vals c col v).1 h
    exact ⟨k, h1⟩

/-- The dataframe of the documentation, with a path given twice. -/
def dfAB : List (DfRow Nat) :=
  [⟨"/A".toList, "foo".toList, [("renames".toList, 1)]⟩, ⟨"/B".toList, "bar".toList, [("renames".toList, 2)]⟩,
    ⟨"/A".toList, "x/y".toList, [("renames".toList, 3)]⟩]

example : (∀ r ∈ dfAB, ∃ k, r.path = '/' :: k ∧ k ≠ "".toList ∧ Plain k ∧ StepName k) ∧
    lastName dfAB "/A".toList = some "x/y".toList ∧ lastCell dfAB "/A".toList "renames".toList = some 3 ∧
    lastCell dfAB "/B".toList "renames".toList = some 2 := by
  refine ⟨fun r hr => ?_, by decide +kernel, by decide +kernel, by decide +kernel⟩
  simp only [dfAB, List.mem_cons, List.not_mem_nil, or_false] at hr
  rcases hr with rfl | rfl | rfl
  · exact ⟨"A".toList, rfl, by decide +kernel, ⟨by decide +kernel, by decide +kernel⟩, by decide +kernel, by decide +kernel, by decide +kernel⟩
  · exact ⟨"B".toList, rfl, by decide +kernel, ⟨by decide +kernel, by decide +kernel⟩, by decide +kernel, by decide +kernel, by decide +kernel⟩
  · exact ⟨"A".toList, rfl, by decide +kernel, ⟨by decide +kernel, by decide +kernel⟩, by decide +kernel, by decide +kernel, by decide +kernel⟩

/-- C100 fails for nested paths: the attributes of the row `/a/b` are set on a child of the root called `a/b`, whose text is not the
name given, while the step `a.b`, which has the name, has no attributes. -/
theorem C100_nested_refuted : ∃ (rows : List (DfRow Nat)) (σ σ1 σ2 : PsState) (attrs : StepAttrs Nat) (s c a b : Nat),
    rows = [⟨"/a/b".toList, "N".toList, [("unit".toList, 5)]⟩] ∧
    pstepFromDf 9 Tests.toy rows = .ok (σ, attrs, s) ∧
    Edge σ s "a/b".toList c ∧ textOf σ c = some "a/b".toList ∧ dget attrs (c, "unit".toList) = some 5 ∧
    getAttr 9 Tests.toy σ s "a".toList = (σ1, .ok (some a)) ∧ getAttr 9 Tests.toy σ1 a "b".toList = (σ2, .ok (some b)) ∧
    textOf σ2 b = some "N".toList ∧ dget attrs (b, "unit".toList) = none :=
  ⟨_, _, _, _, _, _, _, _, _, rfl, rfl, ⟨_, rfl, rfl⟩, rfl, rfl, rfl, rfl, rfl, rfl⟩

/-- C100 fails for names that are methods of texts: the dataframe cannot be used, although its mappings can. -/
theorem C100_method_refuted : ∃ (rows : List (DfRow Nat)) (pm : Pmod),
    rows = [⟨"/count".toList, "N".toList, [("unit".toList, 5)]⟩] ∧
    pmodsFromTuples Tests.toy (rows.map (fun r => (some r.path, some r.name))) = .ok pm ∧
    pm.mapPath Tests.toy "/count".toList = .ok "/N".toList ∧
    pstepFromDf 9 Tests.toy rows = .error .attributeError :=
  ⟨_, _, rfl, rfl, rfl, rfl⟩

/-- C100 fails for a row that says nothing: no step is made, although the mappings of the same rows, given as a list, leave the
row out. -/
theorem C100_blank_refuted : ∃ (rows : List (DfRow Nat)) (pm : Pmod),
    rows = [⟨"/a".toList, "N".toList, [("unit".toList, 5)]⟩, ⟨"".toList, "".toList, [("unit".toList, 6)]⟩] ∧
    pmodsFromTuples Tests.toy (rows.map (fun r => (some r.path, some r.name))) = .ok pm ∧
    pm.mapPath Tests.toy "/a".toList = .ok "/N".toList ∧
    pstepFromDf 9 Tests.toy rows = .error .typeError :=
  ⟨_, _, rfl, rfl, rfl, rfl⟩
end Props
