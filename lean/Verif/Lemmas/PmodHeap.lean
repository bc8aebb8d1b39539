import Verif.Lemmas.Pstep
import Verif.Lemmas.Pmod
/-
Mappings on the heap behave as the trees of mappings they stand for.
-/
set_option linter.unusedSimpArgs false
namespace Lemmas
open Py Model Spec

/-- At most `n` levels. -/
inductive Within : Nat → Pmod → Prop
  | mk (n a s r) : (∀ kv ∈ s, Within n kv.2) → (∀ kv ∈ r, Within n kv.2) → Within (n + 1) (.mk a s r)

theorem Within.mono {n : Nat} {p : Pmod} (h : Within n p) : ∀ m, n ≤ m → Within m p := by
  induction h with
  | mk n a s r _ _ ih1 ih2 =>
    intro m hm
    cases m with
    | zero => omega
    | succ m => exact .mk m a s r (fun kv h => ih1 kv h m (by omega)) (fun kv h => ih2 kv h m (by omega))

theorem within_of_depthAll {n : Nat} (l : List (Str × Pmod)) (ih : ∀ kv ∈ l, Within (depth kv.2) kv.2)
    (h : depthAll l ≤ n) : ∀ kv ∈ l, Within n kv.2 := by
  induction l with
  | nil => simp
  | cons x t iht =>
    obtain ⟨k, p⟩ := x
    simp only [depthAll] at h
    intro kv hkv
    rcases List.mem_cons.1 hkv with e | e
    · subst e; exact (ih (k, p) (by simp)).mono _ (by simp only; omega)
    · exact iht (fun kv hkv => ih kv (by simp [hkv])) (by omega) kv e

theorem within_depth : ∀ p : Pmod, Within (depth p) p := by
  apply Pmod.ind
  intro a s r hs hr
  rw [depth]
  exact .mk _ a s r (within_of_depthAll s hs (by omega)) (within_of_depthAll r hr (by omega))

theorem mem_dset_cases {β : Type} {l : List (Str × β)} {k : Str} {v : β} {kv : Str × β} (h : kv ∈ dset l k v) :
    kv ∈ l ∨ kv = (k, v) := by
  induction l with
  | nil => simp [dset] at h; exact .inr h
  | cons x t ih =>
    obtain ⟨k', v'⟩ := x
    simp only [dset] at h
    split at h
    · next e =>
      subst e
      rcases List.mem_cons.1 h with e | e
      · exact .inr e
      · exact .inl (by simp [e])
    · rcases List.mem_cons.1 h with e | e
      · exact .inl (by simp [e])
      · rcases ih e with e | e
        · exact .inl (by simp [e])
        · exact .inr e

theorem within_mergeSteps {n : Nat} (hm : ∀ x y, Within n x → Within n y → Within n (x.merge y))
    (s' : List (Str × Pmod)) : ∀ s, (∀ kv ∈ s, Within n kv.2) → (∀ kv ∈ s', Within n kv.2) →
    ∀ kv ∈ Pmod.mergeSteps s s', Within n kv.2 := by
  induction s' with
  | nil => intro s hs _; simpa [Pmod.mergeSteps] using hs
  | cons x t ih =>
    intro s hs ht
    obtain ⟨k, o⟩ := x
    rw [Pmod.mergeSteps]
    refine ih _ (fun kv hkv => ?_) (fun kv hkv => ht kv (by simp [hkv]))
    rcases mem_dset_cases hkv with h | h
    · exact hs kv h
    · subst h
      have ho := ht (k, o) (by simp)
      simp only at ho ⊢
      split
      · next sp hsp => exact hm _ _ (hs (k, sp) (mem_of_dget hsp)) ho
      · exact ho

theorem within_mergeRegxs {n : Nat} (hm : ∀ x y, Within n x → Within n y → Within n (x.merge y))
    (r : List (Str × Pmod)) (hr : ∀ kv ∈ r, Within n kv.2)
    (r' : List (Str × Pmod)) : (∀ kv ∈ r', Within n kv.2) → ∀ kv ∈ Pmod.mergeRegxs r r', Within n kv.2 := by
  induction r' with
  | nil => intro _; simp [Pmod.mergeRegxs]
  | cons x t ih =>
    intro ht kv hkv
    obtain ⟨k, o⟩ := x
    rw [Pmod.mergeRegxs] at hkv
    rcases List.mem_cons.1 hkv with h | h
    · subst h
      have ho := ht (k, o) (by simp)
      simp only at ho ⊢
      split
      · next sp hsp => exact hm _ _ (hr (k, sp) (mem_of_dget hsp)) ho
      · exact ho
    · exact ih (fun kv hkv => ht kv (by simp [hkv])) kv h

theorem within_merge : ∀ (n : Nat) (x y : Pmod), Within n x → Within n y → Within n (x.merge y) := by
  intro n
  induction n with
  | zero => intro x y h; cases h
  | succ n ih =>
    intro x y hx hy
    cases hx with
    | mk _ a s r hs hr =>
      cases hy with
      | mk _ a' s' r' hs' hr' =>
        rw [Pmod.merge]
        refine .mk n _ _ _ ?_ ?_
        · split
          · exact hs
          · split
            · exact hs'
            · exact within_mergeSteps ih s' s hs hs'
        · split
          · exact hr
          · split
            · exact hr'
            · intro kv hkv
              rcases List.mem_append.1 hkv with h | h
              · exact hr kv (List.mem_filter.1 h).1
              · exact within_mergeRegxs ih r hr r' hr' kv h

/-! ### Dictionaries of mappings on the heap -/

theorem denAll_ext {h h' : List PmodObj} (e : Ext h h') {rs : List (Str × Nat)} {ts : List (Str × Pmod)}
    (d : DenAll h rs ts) : DenAll h' rs ts := by
  induction rs generalizing ts with
  | nil => cases d; exact .nil
  | cons x t ih =>
    cases d with
    | cons k r p rs ts hd ht => exact .cons k r p _ _ (den_ext e hd) (ih ht)

theorem denAll_keys {h : List PmodObj} {rs : List (Str × Nat)} {ts : List (Str × Pmod)}
    (d : DenAll h rs ts) : dkeys rs = dkeys ts := by
  induction rs generalizing ts with
  | nil => cases d; rfl
  | cons x t ih =>
    cases d with
    | cons k r p rs ts hd ht => simp only [dkeys, List.map_cons] at ih ⊢; rw [ih ht]

theorem denAll_isEmpty {h : List PmodObj} {rs : List (Str × Nat)} {ts : List (Str × Pmod)}
    (d : DenAll h rs ts) : rs.isEmpty = ts.isEmpty := by
  cases d <;> rfl

theorem denAll_get {h : List PmodObj} {rs : List (Str × Nat)} {ts : List (Str × Pmod)}
    (d : DenAll h rs ts) (k : Str) :
    (dget rs k = none ∧ dget ts k = none) ∨ ∃ r t, dget rs k = some r ∧ dget ts k = some t ∧ Den h r t := by
  induction rs generalizing ts with
  | nil => cases d; exact .inl ⟨rfl, rfl⟩
  | cons x t ih =>
    cases d with
    | cons k' r p rs ts hd ht =>
      simp only [dget_cons]
      by_cases e : k' = k
      · simp only [e, if_true]; exact .inr ⟨r, p, rfl, rfl, hd⟩
      · simp only [e, if_false]; exact ih ht

theorem denAll_set {h : List PmodObj} {rs : List (Str × Nat)} {ts : List (Str × Pmod)}
    (d : DenAll h rs ts) (k : Str) {r : Nat} {t : Pmod} (hd : Den h r t) :
    DenAll h (dset rs k r) (dset ts k t) := by
  induction rs generalizing ts with
  | nil => cases d; exact .cons k r t [] [] hd .nil
  | cons x rs' ih =>
    cases d with
    | cons k' r' p rs ts hd' ht =>
      simp only [dset]
      by_cases e : k' = k
      · simp only [e, if_true]; exact .cons k r t _ _ hd ht
      · simp only [e, if_false]; exact .cons k' r' p _ _ hd' (ih ht)

theorem denAll_append {h : List PmodObj} {rs rs2 : List (Str × Nat)} {ts ts2 : List (Str × Pmod)}
    (d : DenAll h rs ts) (d2 : DenAll h rs2 ts2) : DenAll h (rs ++ rs2) (ts ++ ts2) := by
  induction rs generalizing ts with
  | nil => cases d; exact d2
  | cons x rs' ih =>
    cases d with
    | cons k' r' p rs ts hd' ht => exact .cons k' r' p _ _ hd' (ih ht)

theorem denAll_filter {h : List PmodObj} {rs : List (Str × Nat)} {ts : List (Str × Pmod)} (p : Str → Bool)
    (d : DenAll h rs ts) : DenAll h (rs.filter (fun kv => p kv.1)) (ts.filter (fun kv => p kv.1)) := by
  induction rs generalizing ts with
  | nil => cases d; exact .nil
  | cons x rs' ih =>
    cases d with
    | cons k' r' q rs ts hd' ht =>
      simp only [List.filter_cons]
      cases p k' with
      | true => exact .cons k' r' q _ _ hd' (ih ht)
      | false => exact ih ht

theorem denAll_mem {h : List PmodObj} {rs : List (Str × Nat)} {ts : List (Str × Pmod)}
    (d : DenAll h rs ts) {kv : Str × Pmod} (hkv : kv ∈ ts) : ∃ r, (kv.1, r) ∈ rs ∧ Den h r kv.2 := by
  induction rs generalizing ts with
  | nil => cases d; cases hkv
  | cons x rs' ih =>
    cases d with
    | cons k' r' q rs ts hd' ht =>
      rcases List.mem_cons.1 hkv with e | e
      · subst e; exact ⟨r', by simp, hd'⟩
      · obtain ⟨r, h1, h2⟩ := ih ht e
        exact ⟨r, by simp [h1], h2⟩

mutual
/-- An object stands for one tree of mappings only. -/
theorem den_unique {h : List PmodObj} : ∀ {t t' : Pmod} {r : Nat}, Den h r t → Den h r t' → t = t'
  | .mk _ st rg, _, _, .mk r o _ _ ho hs hr, d' => by
    cases d' with
    | mk _ o' st' rg' ho' hs' hr' =>
      rw [ho] at ho'; injection ho' with ho'; subst ho'
      rw [denAll_unique hs hs', denAll_unique hr hr']
theorem denAll_unique {h : List PmodObj} : ∀ {ts ts' : List (Str × Pmod)} {rs : List (Str × Nat)},
    DenAll h rs ts → DenAll h rs ts' → ts = ts'
  | [], _, _, .nil, d' => by cases d'; rfl
  | (_, t) :: ts, _, _, .cons k r _ rs _ hd ht, d' => by
    cases d' with
    | cons _ _ t' _ ts' hd' ht' => rw [den_unique hd hd', denAll_unique ht ht']
end

/-! ### Merging -/

section merge
variable {mg : List PmodObj → Nat → Nat → Option (List PmodObj × Nat)} {n : Nat}

/-- `mg` merges what is at most `n` levels deep. -/
def Merges (mg : List PmodObj → Nat → Nat → Option (List PmodObj × Nat)) (n : Nat) : Prop :=
  ∀ h a b ta tb, Den h a ta → Den h b tb → Within n tb →
    ∃ h' r, mg h a b = some (h', r) ∧ Ext h h' ∧ Den h' r (ta.merge tb)

theorem mergeStepsH_den (hm : Merges mg n) (ots : List (Str × Pmod)) : ∀ h s ts os, DenAll h s ts →
    DenAll h os ots → (∀ kv ∈ ots, Within n kv.2) →
    ∃ h' s', mergeStepsH mg h s os = some (h', s') ∧ Ext h h' ∧ DenAll h' s' (Pmod.mergeSteps ts ots) := by
  induction ots with
  | nil =>
    intro h s ts os d d2 _
    cases d2
    exact ⟨h, s, rfl, Ext.refl h, by simpa [Pmod.mergeSteps] using d⟩
  | cons x ots ih =>
    intro h s ts os d d2 hw
    cases d2 with
    | cons k r p rs _ hd ht =>
      rw [mergeStepsH, Pmod.mergeSteps]
      rcases denAll_get d k with ⟨h1, h2⟩ | ⟨r', t', h1, h2, h3⟩
      · rw [h1, h2]
        exact ih h _ _ rs (denAll_set d k hd) ht (fun kv hkv => hw kv (by simp [hkv]))
      · rw [h1, h2]
        obtain ⟨h', m, hmg, he, hdm⟩ := hm h r' r t' p h3 hd (hw (k, p) (by simp))
        simp only [hmg]
        obtain ⟨h'', s'', e1, e2, e3⟩ := ih h' _ _ rs (denAll_set (denAll_ext he d) k hdm) (denAll_ext he ht)
          (fun kv hkv => hw kv (by simp [hkv]))
        exact ⟨h'', s'', e1, he.trans e2, e3⟩

theorem mergeRegxsH_den (hm : Merges mg n) (ots : List (Str × Pmod)) : ∀ h s ts os, DenAll h s ts →
    DenAll h os ots → (∀ kv ∈ ots, Within n kv.2) →
    ∃ h' s', mergeRegxsH mg h s os = some (h', s') ∧ Ext h h' ∧ DenAll h' s' (Pmod.mergeRegxs ts ots) := by
  induction ots with
  | nil =>
    intro h s ts os d d2 _
    cases d2
    exact ⟨h, [], rfl, Ext.refl h, by simpa [Pmod.mergeRegxs] using DenAll.nil⟩
  | cons x ots ih =>
    intro h s ts os d d2 hw
    cases d2 with
    | cons k r p rs _ hd ht =>
      rw [mergeRegxsH, Pmod.mergeRegxs]
      rcases denAll_get d k with ⟨h1, h2⟩ | ⟨r', t', h1, h2, h3⟩
      · rw [h1, h2]
        obtain ⟨h', s', e1, e2, e3⟩ := ih h s ts rs d ht (fun kv hkv => hw kv (by simp [hkv]))
        simp only [e1]
        exact ⟨h', _, rfl, e2, .cons k r p _ _ (den_ext e2 hd) e3⟩
      · rw [h1, h2]
        obtain ⟨h', m, hmg, he, hdm⟩ := hm h r' r t' p h3 hd (hw (k, p) (by simp))
        simp only [hmg]
        obtain ⟨h'', s'', e1, e2, e3⟩ := ih h' s ts rs (denAll_ext he d) (denAll_ext he ht)
          (fun kv hkv => hw kv (by simp [hkv]))
        simp only [e1]
        exact ⟨h'', _, rfl, he.trans e2, .cons k m _ _ _ (den_ext e2 hdm) e3⟩
end merge

/-- Merging on the heap is merging of trees, if the recursion limit is not below the depth. -/
theorem pmergeH_den : ∀ (F : Nat), Merges (pmergeH F) F := by
  intro F
  induction F with
  | zero => intro h a b ta tb _ _ hw; cases hw
  | succ F ih =>
    intro h a b ta tb da db hw
    cases da with
    | mk _ A st rg hA dst drg =>
      cases db with
      | mk _ B st' rg' hB dst' drg' =>
        cases hw with
        | mk _ _ _ _ hs hr =>
          simp only [pmergeH, hA, hB]
          have h1 : ∃ h1 s, (if B.steps.isEmpty then some (h, A.steps) else if A.steps.isEmpty then some (h, B.steps)
              else mergeStepsH (pmergeH F) h A.steps B.steps) = some (h1, s) ∧ Ext h h1 ∧
              DenAll h1 s (if st'.isEmpty then st else if st.isEmpty then st' else Pmod.mergeSteps st st') := by
            rw [denAll_isEmpty dst', denAll_isEmpty dst]
            split
            · exact ⟨_, _, rfl, Ext.refl _, dst⟩
            · split
              · exact ⟨_, _, rfl, Ext.refl _, dst'⟩
              · exact mergeStepsH_den ih st' h _ st _ dst dst' hs
          obtain ⟨h1, s, e1, x1, d1⟩ := h1
          rw [e1]
          simp only
          have h2 : ∃ h2 r, (if B.regxs.isEmpty then some (h1, A.regxs) else if A.regxs.isEmpty then some (h1, B.regxs)
              else (mergeRegxsH (pmergeH F) h1 A.regxs B.regxs).map (fun p =>
                (p.1, A.regxs.filter (fun kv => !(dkeys B.regxs).contains kv.1) ++ p.2))) = some (h2, r) ∧ Ext h1 h2 ∧
              DenAll h2 r (if rg'.isEmpty then rg else if rg.isEmpty then rg'
                else rg.filter (fun kv => !(dkeys rg').contains kv.1) ++ Pmod.mergeRegxs rg rg') := by
            have drg1 := denAll_ext x1 drg
            have drg1' := denAll_ext x1 drg'
            rw [denAll_isEmpty drg', denAll_isEmpty drg]
            split
            · exact ⟨_, _, rfl, Ext.refl _, drg1⟩
            · split
              · exact ⟨_, _, rfl, Ext.refl _, drg1'⟩
              · obtain ⟨h2, r, e, x, d⟩ := mergeRegxsH_den ih rg' h1 _ rg _ drg1 drg1' hr
                refine ⟨h2, _, by rw [e]; rfl, x, ?_⟩
                rw [denAll_keys drg']
                exact denAll_append (denAll_filter (fun k => !(dkeys rg').contains k) (denAll_ext x drg1)) d
          obtain ⟨h2, r, e2, x2, d2⟩ := h2
          rw [e2]
          simp only
          refine ⟨_, _, rfl, (x1.trans x2).trans (Ext.snoc _ _), ?_⟩
          rw [Pmod.merge]
          exact .mk h2.length ⟨B.alias.or A.alias, s, r⟩ _ _ List.getElem?_concat_length
            (denAll_ext (Ext.snoc _ _) (denAll_ext x2 d1)) (denAll_ext (Ext.snoc _ _) d2)

/-! ### Descending -/

theorem denOpt_ext {h h' : List PmodObj} (e : Ext h h') {r : Option Nat} {t : Option Pmod}
    (d : DenOpt h r t) : DenOpt h' r t := by
  cases r <;> cases t
  · trivial
  · exact d
  · exact d
  · exact den_ext e d

theorem denOpt_unique {h : List PmodObj} {r : Option Nat} {t t' : Option Pmod}
    (d : DenOpt h r t) (d' : DenOpt h r t') : t = t' := by
  cases r <;> cases t <;> cases t'
  · rfl
  · exact d'.elim
  · exact d.elim
  · exact d.elim
  · exact d.elim
  · exact d.elim
  · exact d'.elim
  · rw [den_unique d d']

/-- Objects and trees, one by one. -/
inductive DenList (h : List PmodObj) : List Nat → List Pmod → Prop
  | nil : DenList h [] []
  | cons (r t rs ts) : Den h r t → DenList h rs ts → DenList h (r :: rs) (t :: ts)

theorem denList_ext {h h' : List PmodObj} (e : Ext h h') {rs : List Nat} {ts : List Pmod}
    (d : DenList h rs ts) : DenList h' rs ts := by
  induction d with
  | nil => exact .nil
  | cons r t rs ts hd _ ih => exact .cons r t rs ts (den_ext e hd) ih

theorem denList_append {h : List PmodObj} {rs rs2 : List Nat} {ts ts2 : List Pmod}
    (d : DenList h rs ts) (d2 : DenList h rs2 ts2) : DenList h (rs ++ rs2) (ts ++ ts2) := by
  induction d with
  | nil => exact d2
  | cons r t rs ts hd _ ih => exact .cons r t _ _ hd ih

theorem reduceH_den {F : Nat} (ts : List Pmod) : ∀ {h a ta rs}, Den h a ta → DenList h rs ts →
    (∀ t ∈ ts, Within F t) →
    ∃ h' r, reduceH F h a rs = some (h', r) ∧ Ext h h' ∧ Den h' r (ts.foldl Pmod.merge ta) := by
  induction ts with
  | nil => intro h a ta rs d d2 _; cases d2; exact ⟨h, a, rfl, Ext.refl h, d⟩
  | cons t ts ih =>
    intro h a ta rs d d2 hw
    cases d2 with
    | cons r _ rs _ hd hrest =>
      obtain ⟨h', m, e, x, dm⟩ := pmergeH_den F h a r ta t d hd (hw t (by simp))
      obtain ⟨h'', r', e', x', d'⟩ := ih dm (denList_ext x hrest) (fun t ht => hw t (by simp [ht]))
      exact ⟨h'', r', by simp only [reduceH, e]; exact e', x.trans x', d'⟩

theorem den_alias {h : List PmodObj} {r : Nat} {t : Pmod} (d : Den h r t) :
    (h[r]?).bind PmodObj.alias = t.alias := by
  cases d with
  | mk _ o st rg ho _ _ => rw [ho]; rfl

theorem matches_den {E : RegexLib} {h : List PmodObj} {rs : List (Str × Nat)} {ts : List (Str × Pmod)}
    (d : DenAll h rs ts) (k : Str) :
    DenList h ((rs.filterMap (fun kv => (E.fullmatch kv.1 k).map (fun m => (kv.2, m)))).map (·.1))
      ((ts.filterMap (fun kv => (E.fullmatch kv.1 k).map (fun m => (kv.2, m)))).map (·.1)) ∧
    ((rs.filterMap (fun kv => (E.fullmatch kv.1 k).map (fun m => (kv.2, m)))).map
        (fun x => ((h[x.1]?).bind PmodObj.alias, x.2))) =
      ((ts.filterMap (fun kv => (E.fullmatch kv.1 k).map (fun m => (kv.2, m)))).map
        (fun x => (x.1.alias, x.2))) := by
  induction rs generalizing ts with
  | nil => cases d; exact ⟨.nil, rfl⟩
  | cons x rs' ih =>
    cases d with
    | cons k' r' q rs ts hd' ht =>
      obtain ⟨i1, i2⟩ := ih ht
      simp only [List.filterMap_cons]
      cases hm : E.fullmatch k' k with
      | none => simp only [Option.map_none]; exact ⟨i1, i2⟩
      | some m =>
        simp only [Option.map_some, List.map_cons]
        exact ⟨.cons _ _ _ _ hd' i1, by rw [i2, den_alias hd']⟩

/-- The alias found depends only on the aliases of the matches. -/
def lastAliasA (E : RegexLib) : List (Option Str × E.Match) → Except PyErr (Option Str)
  | [] => .ok none
  | (some a, m) :: _ => match E.expand m a with
      | .ok x => .ok (some x)
      | .error e => .error e
  | (none, _) :: rest => lastAliasA E rest

theorem lastAliasH_eq (E : RegexLib) (h : List PmodObj) (l : List (Nat × E.Match)) :
    lastAliasH E h l = lastAliasA E (l.map (fun x => ((h[x.1]?).bind PmodObj.alias, x.2))) := by
  induction l with
  | nil => rfl
  | cons x t ih =>
    obtain ⟨r, m⟩ := x
    simp only [lastAliasH, List.map_cons]
    cases (h[r]?).bind PmodObj.alias with
    | none => simp only [lastAliasA]; exact ih
    | some a => simp only [lastAliasA]; cases E.expand m a <;> rfl

theorem lastAlias_eq (E : RegexLib) (l : List (Pmod × E.Match)) :
    Pmod.lastAlias E l = lastAliasA E (l.map (fun x => (x.1.alias, x.2))) := by
  induction l with
  | nil => rfl
  | cons x t ih =>
    obtain ⟨r, m⟩ := x
    simp only [Pmod.lastAlias, List.map_cons]
    cases r.alias with
    | none => simp only [lastAliasA]; exact ih
    | some a => simp only [lastAliasA]; cases E.expand m a <;> rfl

/-- Descending on the heap is descending in the tree. -/
theorem descendH_den {F n : Nat} {E : RegexLib} {h : List PmodObj} {r : Nat} {t : Pmod} (d : Den h r t)
    (hw : Within n t) (hn : n ≤ F) (k : Str) :
    (∀ e, t.descend E k = .error e → descendH F E h r k = .error e) ∧
    (∀ o al, t.descend E k = .ok (o, al) → ∃ h' p, descendH F E h r k = .ok (h', p, al) ∧ Ext h h' ∧
      DenOpt h' p o ∧ ∀ t', o = some t' → Within n t') := by
  cases d with
  | mk _ obj st rg ho ds dr =>
    cases hw with
    | mk n' _ _ _ ws wr =>
      obtain ⟨hml, hma⟩ := matches_den (E := E) dr k
      have hmem : ∀ x ∈ ((rg.filterMap (fun kv => (E.fullmatch kv.1 k).map (fun m => (kv.2, m)))).map (·.1)),
          Within n' x := by
        intro x hx
        simp only [List.mem_map, List.mem_filterMap] at hx
        obtain ⟨⟨y, m⟩, ⟨kv, hkv, hm⟩, rfl⟩ := hx
        cases hf : E.fullmatch kv.1 k with
        | none => rw [hf] at hm; cases hm
        | some m' => rw [hf] at hm; simp at hm; rw [← hm.1]; exact wr kv hkv
      unfold Pmod.descend descendH
      simp only [ho, Pmod.steps, Pmod.regxs, Pmod.matchRegxs]
      have h1 : (dget obj.steps k).bind (fun c => (h[c]?).bind PmodObj.alias) = (dget st k).bind Pmod.alias := by
        rcases denAll_get ds k with ⟨a, b⟩ | ⟨r', t', a, b, c⟩
        · rw [a, b]; rfl
        · rw [a, b]; exact den_alias c
      have h2 : lastAliasH E h
            (obj.regxs.filterMap (fun kv => (E.fullmatch kv.1 k).map (fun m => (kv.2, m)))).reverse =
          Pmod.lastAlias E (rg.filterMap (fun kv => (E.fullmatch kv.1 k).map (fun m => (kv.2, m)))).reverse := by
        rw [lastAliasH_eq, lastAlias_eq, List.map_reverse, List.map_reverse, hma]
      rw [h1, h2]
      have hlist : DenList h ((obj.regxs.filterMap (fun kv => (E.fullmatch kv.1 k).map (fun m => (kv.2, m)))).map (·.1) ++
            (dget obj.steps k).toList)
          ((rg.filterMap (fun kv => (E.fullmatch kv.1 k).map (fun m => (kv.2, m)))).map (·.1) ++ (dget st k).toList) := by
        refine denList_append hml ?_
        rcases denAll_get ds k with ⟨a, b⟩ | ⟨r', t', a, b, c⟩
        · rw [a, b]; exact .nil
        · rw [a, b]; exact .cons _ _ _ _ c .nil
      have hwl : ∀ x ∈ ((rg.filterMap (fun kv => (E.fullmatch kv.1 k).map (fun m => (kv.2, m)))).map (·.1) ++
          (dget st k).toList), Within n' x := by
        intro x hx
        rcases List.mem_append.1 hx with hx | hx
        · exact hmem x hx
        · cases hd : dget st k with
          | none => rw [hd] at hx; cases hx
          | some y => rw [hd] at hx; simp at hx; subst hx; exact ws (k, x) (mem_of_dget hd)
      clear h1 h2 hma hmem hml
      generalize (Pmod.lastAlias E
              (rg.filterMap (fun kv => (E.fullmatch kv.1 k).map (fun m => (kv.2, m)))).reverse) = alias
      generalize (rg.filterMap (fun kv => (E.fullmatch kv.1 k).map (fun m => (kv.2, m)))).map (·.1) ++
          (dget st k).toList = ts at *
      generalize (obj.regxs.filterMap (fun kv => (E.fullmatch kv.1 k).map (fun m => (kv.2, m)))).map (·.1) ++
            (dget obj.steps k).toList = rs at *
      have main : (rs = [] ∧ ts = []) ∨ ∃ p ps t tl h' m, rs = p :: ps ∧ ts = t :: tl ∧
          reduceH F h p ps = some (h', m) ∧ Ext h h' ∧ Den h' m (tl.foldl Pmod.merge t) ∧
          Within (n' + 1) (tl.foldl Pmod.merge t) := by
        cases hlist with
        | nil => exact .inl ⟨rfl, rfl⟩
        | cons p t rs ts hd hrest =>
          obtain ⟨h', m, e, x, dm⟩ := reduceH_den (F := F) ts hd hrest
            (fun t ht => (hwl t (by simp [ht])).mono F (by omega))
          refine .inr ⟨p, rs, t, ts, h', m, rfl, rfl, e, x, dm, ?_⟩
          have : ∀ (l : List Pmod) (a : Pmod), Within n' a → (∀ t ∈ l, Within n' t) → Within n' (l.foldl Pmod.merge a) := by
            intro l
            induction l with
            | nil => intro a ha _; exact ha
            | cons y l ih => intro a ha hl; exact ih _ (within_merge n' a y ha (hl y (by simp))) (fun t ht => hl t (by simp [ht]))
          exact (this ts t (hwl t (by simp)) (fun t ht => hwl t (by simp [ht]))).mono _ (by omega)
      clear hlist hwl
      cases hb : (dget st k).bind Pmod.alias with
      | some a =>
        simp only
        rcases main with ⟨rfl, rfl⟩ | ⟨p, ps, t, tl, h', m, rfl, rfl, e, x, dm, wm⟩
        · refine ⟨fun e h => (by cases h), fun o al' h => ?_⟩
          cases h
          exact ⟨h, none, rfl, Ext.refl h, trivial, fun t' h => by cases h⟩
        · simp only [Pmod.reduceMerge, e]
          refine ⟨fun e h => (by cases h), fun o al' h => ?_⟩
          cases h
          exact ⟨h', some m, rfl, x, dm, fun t' ht' => by cases ht'; exact wm⟩
      | none =>
        simp only
        cases alias with
        | error e => exact ⟨fun e' h => by cases h; rfl, fun o al h => by cases h⟩
        | ok a =>
          simp only
          rcases main with ⟨rfl, rfl⟩ | ⟨p, ps, t, tl, h', m, rfl, rfl, e, x, dm, wm⟩
          · refine ⟨fun e h => (by cases h), fun o al' h => ?_⟩
            cases h
            exact ⟨h, none, rfl, Ext.refl h, trivial, fun t' h => by cases h⟩
          · simp only [Pmod.reduceMerge, e]
            refine ⟨fun e h => (by cases h), fun o al' h => ?_⟩
            cases h
            exact ⟨h', some m, rfl, x, dm, fun t' ht' => by cases ht'; exact wm⟩

end Lemmas
