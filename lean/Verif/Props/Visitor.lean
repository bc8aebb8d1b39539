import Verif.Lemmas.Visitor
import Verif.Props.Pandel
set_option linter.unusedSimpArgs false
/-
C89-C91: the verdict of a validation, the document after it, and enumerations.
-/
namespace Props
open Py Model Spec

/-! ### C91: enumerations -/

private theorem length_le_of_subset {α : Type} [DecidableEq α] : ∀ (l m : List α), l.Nodup → (∀ x ∈ l, x ∈ m) → l.length ≤ m.length := by
  intro l
  induction l with
  | nil => intro m _ _; simp
  | cons a t ih =>
    intro m hn hs
    have ha := hs a (by simp)
    have hn' := List.nodup_cons.1 hn
    have := ih (m.erase a) hn'.2 (fun x hx => by
      have hxa : x ≠ a := by rintro rfl; exact hn'.1 hx
      exact (List.mem_erase_of_ne hxa).2 (hs x (List.mem_cons_of_mem _ hx)))
    rw [List.length_erase_of_mem ha] at this
    have : 0 < m.length := List.length_pos_of_mem ha
    simp; omega

private theorem subset_back {l m : List Str} (hn : l.Nodup) (hs : ∀ x ∈ l, x ∈ m) (hl : m.length ≤ l.length) : ∀ x ∈ m, x ∈ l := by
  intro x hx
  refine Classical.byContradiction fun hxl => ?_
  have := length_le_of_subset (x :: l) m (List.nodup_cons.2 ⟨hxl, hn⟩) (fun y hy => by
    rcases List.mem_cons.1 hy with rfl | hy
    · exact hx
    · exact hs y hy)
  simp at this; omega

private theorem pyEqList_iff (xs : List Doc) : ∀ ys, pyEqList xs ys = true ↔
    xs.length = ys.length ∧ ∀ (i : Nat) x y, xs[i]? = some x → ys[i]? = some y → pyEq x y = true := by
  induction xs with
  | nil => intro ys; cases ys <;> simp [pyEqList]
  | cons x xs ih =>
    intro ys
    cases ys with
    | nil => simp [pyEqList]
    | cons y ys =>
      simp only [pyEqList, Bool.and_eq_true, ih, List.length_cons, Nat.succ_inj]
      constructor
      · rintro ⟨h1, h2, h3⟩
        refine ⟨h2, ?_⟩
        intro i a b ha hb
        cases i with
        | zero => simp at ha hb; subst ha hb; exact h1
        | succ i => exact h3 i a b (by simpa using ha) (by simpa using hb)
      · rintro ⟨h2, h3⟩
        exact ⟨h3 0 x y rfl rfl, h2, fun i a b ha hb => h3 (i + 1) a b (by simpa using ha) (by simpa using hb)⟩

private theorem pyEqItems_iff (as : List (Str × Doc)) (bs : List (Str × Doc)) : pyEqItems as bs = true ↔
    ∀ p ∈ as, ∃ w, dget bs p.1 = some w ∧ pyEq p.2 w = true := by
  induction as with
  | nil => simp [pyEqItems]
  | cons a t ih =>
    obtain ⟨k, v⟩ := a
    simp only [pyEqItems, Bool.and_eq_true, ih, List.mem_cons, forall_eq_or_imp]
    cases dget bs k <;> simp

private theorem pyEq_iff (a : Doc) : ∀ b, KeysOk a → KeysOk b → (¬ HasBit a ∨ ¬ HasBit b) → (pyEq a b = true ↔ SameJson a b) := by
  induction a using Doc.ind with
  | h0 => intro b _ _ _; cases b <;> simp [pyEq] <;> first | exact .null | (intro h; cases h)
  | h1 x =>
    intro b _ _ hb
    rcases hb with hb | hb
    · exact absurd (.bool x) hb
    · cases b with
      | bool y => exact absurd (.bool y) hb
      | int i =>
        have h0 : i ≠ 0 := by rintro rfl; exact hb .zero
        have h1 : i ≠ 1 := by rintro rfl; exact hb .one
        have : ¬ SameJson (.bool x) (.int i) := by intro h; cases h
        cases x <;> simp [pyEq, h0, h1, this]
      | _ => simp [pyEq]; intro h; cases h
  | h2 i =>
    intro b _ _ hb
    cases b with
    | int j =>
      simp only [pyEq, beq_iff_eq]
      constructor
      · rintro rfl; exact .int i
      · intro h; cases h; rfl
    | bool y =>
      rcases hb with hb | hb
      · have h0 : i ≠ 0 := by rintro rfl; exact hb .zero
        have h1 : i ≠ 1 := by rintro rfl; exact hb .one
        have : ¬ SameJson (.int i) (.bool y) := by intro h; cases h
        cases y <;> simp [pyEq, h0, h1, this]
      · exact absurd (.bool y) hb
    | _ => simp [pyEq]; intro h; cases h
  | h3 i =>
    intro b _ _ hb
    cases b with
    | atom j =>
      simp only [pyEq, beq_iff_eq]
      constructor
      · rintro rfl; exact .atom i
      · intro h; cases h; rfl
    | _ => simp [pyEq]; intro h; cases h
  | h4 i =>
    intro b _ _ hb
    cases b with
    | str j =>
      simp only [pyEq, beq_iff_eq]
      constructor
      · rintro rfl; exact .str i
      · intro h; cases h; rfl
    | _ => simp [pyEq]; intro h; cases h
  | h5 xs ih =>
    intro b ha hb hbit
    cases b with
    | list ys =>
      simp only [pyEq, pyEqList_iff]
      cases ha with | list _ ha => cases hb with | list _ hb =>
      have key : ∀ (i : Nat) x y, xs[i]? = some x → ys[i]? = some y → (pyEq x y = true ↔ SameJson x y) := by
        intro i x y hx hy
        refine ih x (List.mem_of_getElem? hx) y (ha x (List.mem_of_getElem? hx)) (hb y (List.mem_of_getElem? hy)) ?_
        rcases hbit with h | h
        · exact .inl (fun hh => h (.list _ _ (List.mem_of_getElem? hx) hh))
        · exact .inr (fun hh => h (.list _ _ (List.mem_of_getElem? hy) hh))
      constructor
      · rintro ⟨h1, h2⟩
        exact .list _ _ h1 (fun i x y hx hy => (key i x y hx hy).1 (h2 i x y hx hy))
      · intro h
        cases h with
        | list _ _ h1 h2 => exact ⟨h1, fun i x y hx hy => (key i x y hx hy).2 (h2 i x y hx hy)⟩
    | _ => simp [pyEq]; intro h; cases h
  | h6 as ih =>
    intro b ha hb hbit
    cases b with
    | dict bs =>
      simp only [pyEq, pyEqItems_iff, Bool.and_eq_true, beq_iff_eq]
      cases ha with | dict _ hna ha => cases hb with | dict _ hnb hb =>
      have key : ∀ k x y, dget as k = some x → dget bs k = some y → (pyEq x y = true ↔ SameJson x y) := by
        intro k x y hx hy
        refine ih (k, x) (mem_of_dget hx) y (ha _ (mem_of_dget hx)) (hb _ (mem_of_dget hy)) ?_
        rcases hbit with h | h
        · exact .inl (fun hh => h (.dict _ _ _ (mem_of_dget hx) hh))
        · exact .inr (fun hh => h (.dict _ _ _ (mem_of_dget hy) hh))
      constructor
      · rintro ⟨h1, h2⟩
        have hsub : ∀ k ∈ dkeys as, k ∈ dkeys bs := by
          intro k hk
          obtain ⟨v, hv⟩ := (mem_dkeys_iff _ _).1 hk
          obtain ⟨w, hw, _⟩ := h2 _ (mem_of_dget hv)
          exact (mem_dkeys_iff _ _).2 ⟨w, hw⟩
        have hback := subset_back hna hsub (by simp [dkeys]; omega)
        refine .dict _ _ ?_ ?_
        · intro k
          rw [Bool.eq_iff_iff, Option.isSome_iff_exists, Option.isSome_iff_exists, ← mem_dkeys_iff, ← mem_dkeys_iff]
          exact ⟨hsub k, hback k⟩
        · intro k x y hx hy
          refine (key k x y hx hy).1 ?_
          obtain ⟨w, hw, hpy⟩ := h2 _ (mem_of_dget hx)
          simp only at hw hpy
          rw [hy] at hw; cases hw; exact hpy
      · intro h
        cases h with
        | dict _ _ h1 h2 =>
          have hsub : ∀ k, k ∈ dkeys as ↔ k ∈ dkeys bs := by
            intro k
            rw [mem_dkeys_iff, mem_dkeys_iff, ← Option.isSome_iff_exists, ← Option.isSome_iff_exists, h1]
          constructor
          · have a1 := length_le_of_subset _ _ hna (fun k hk => (hsub k).1 hk)
            have a2 := length_le_of_subset _ _ hnb (fun k hk => (hsub k).2 hk)
            simp [dkeys] at a1 a2; omega
          · intro p hp
            have hp' : dget as p.1 = some p.2 := dget_of_mem hna hp
            have := h1 p.1
            rw [hp'] at this
            obtain ⟨w, hw⟩ := Option.isSome_iff_exists.1 this.symm
            exact ⟨w, hw, (key _ _ _ hp' hw).2 (h2 _ _ _ hp' hw)⟩
    | _ => simp [pyEq]; intro h; cases h

private theorem sameJson_symm {a b : Doc} (h : SameJson a b) : SameJson b a := by
  induction h with
  | null => exact .null
  | bool b => exact .bool b
  | int i => exact .int i
  | atom t => exact .atom t
  | str s => exact .str s
  | list xs ys h1 _ ih => exact .list _ _ h1.symm (fun i x y hx hy => ih i y x hy hx)
  | dict as bs h1 _ ih => exact .dict _ _ (fun k => (h1 k).symm) (fun k x y hx hy => ih k y x hy hx)

private theorem unboolEq_iff (i : Int) (v : Doc) : unboolEq (.int i) v = true ↔ SameJson v (.int i) := by
  cases v with
  | int j =>
    simp only [unboolEq, pyEq, beq_iff_eq]
    constructor
    · rintro rfl; exact .int _
    · intro h; cases h; rfl
  | _ => simp [unboolEq, pyEq] <;> (intro h; cases h)

/-- C91: an enumeration accepts exactly the values listed, where either the value is a number, or no boolean
and none of the numbers 0 and 1 is in it, or in none of the values listed. See `C91_true_refuted` for the
others. -/
theorem C91_enum_partial (vs : List Doc) (d : Doc) (hd : KeysOk d) (hv : ∀ v ∈ vs, KeysOk v)
    (hb : (∃ i, d = .int i) ∨ ¬ HasBit d ∨ ∀ v ∈ vs, ¬ HasBit v) :
    ruleEnum vs d = true ↔ ∃ v ∈ vs, SameJson v d := by
  have gen : (¬ HasBit d ∨ ∀ v ∈ vs, ¬ HasBit v) → (vs.any (pyEq d) = true ↔ ∃ v ∈ vs, SameJson v d) := by
    intro hb
    rw [List.any_eq_true]
    constructor
    · rintro ⟨v, hm, h⟩
      exact ⟨v, hm, sameJson_symm ((pyEq_iff d v hd (hv v hm) (hb.imp id (fun h => h v hm))).1 h)⟩
    · rintro ⟨v, hm, h⟩
      exact ⟨v, hm, (pyEq_iff d v hd (hv v hm) (hb.imp id (fun h => h v hm))).2 (sameJson_symm h)⟩
  have num : ∀ i, (vs.any (unboolEq (.int i)) = true ↔ ∃ v ∈ vs, SameJson v (.int i)) := by
    intro i
    rw [List.any_eq_true]
    constructor
    · rintro ⟨v, hm, h⟩; exact ⟨v, hm, (unboolEq_iff i v).1 h⟩
    · rintro ⟨v, hm, h⟩; exact ⟨v, hm, (unboolEq_iff i v).2 h⟩
  unfold ruleEnum
  split
  · exact num 0
  · exact num 1
  · next h0 h1 =>
    rcases hb with ⟨i, rfl⟩ | hb
    · refine gen (.inl ?_)
      intro hb
      cases hb with
      | zero => exact h0 rfl
      | one => exact h1 rfl
    · exact gen hb

private theorem pyEq_same (a : Doc) : ∀ b, KeysOk a → KeysOk b → (pyEq a b = true ↔ SamePython a b) := by
  induction a using Doc.ind with
  | h0 => intro b _ _; cases b <;> simp [pyEq] <;> first | exact .null | (intro h; cases h)
  | h1 x =>
    intro b _ _
    cases b with
    | bool y =>
      simp only [pyEq, beq_iff_eq]
      constructor
      · rintro rfl; exact .bool x
      · intro h; cases h; rfl
    | int i =>
      cases x
      · simp only [pyEq, Bool.false_eq_true, if_false, beq_iff_eq]
        constructor
        · rintro rfl; exact .no
        · intro h; cases h; rfl
      · simp only [pyEq, if_true, beq_iff_eq]
        constructor
        · rintro rfl; exact .yes
        · intro h; cases h; rfl
    | _ => simp [pyEq]; intro h; cases h
  | h2 i =>
    intro b _ _
    cases b with
    | int j =>
      simp only [pyEq, beq_iff_eq]
      constructor
      · rintro rfl; exact .int i
      · intro h; cases h; rfl
    | bool y =>
      cases y
      · simp only [pyEq, Bool.false_eq_true, if_false, beq_iff_eq]
        constructor
        · rintro rfl; exact .zero
        · intro h; cases h; rfl
      · simp only [pyEq, if_true, beq_iff_eq]
        constructor
        · rintro rfl; exact .one
        · intro h; cases h; rfl
    | _ => simp [pyEq]; intro h; cases h
  | h3 i =>
    intro b _ _
    cases b with
    | atom j =>
      simp only [pyEq, beq_iff_eq]
      constructor
      · rintro rfl; exact .atom i
      · intro h; cases h; rfl
    | _ => simp [pyEq]; intro h; cases h
  | h4 i =>
    intro b _ _
    cases b with
    | str j =>
      simp only [pyEq, beq_iff_eq]
      constructor
      · rintro rfl; exact .str i
      · intro h; cases h; rfl
    | _ => simp [pyEq]; intro h; cases h
  | h5 xs ih =>
    intro b ha hb
    cases b with
    | list ys =>
      simp only [pyEq, pyEqList_iff]
      cases ha with | list _ ha => cases hb with | list _ hb =>
      have key : ∀ (i : Nat) x y, xs[i]? = some x → ys[i]? = some y → (pyEq x y = true ↔ SamePython x y) := by
        intro i x y hx hy
        exact ih x (List.mem_of_getElem? hx) y (ha x (List.mem_of_getElem? hx)) (hb y (List.mem_of_getElem? hy))
      constructor
      · rintro ⟨h1, h2⟩
        exact .list _ _ h1 (fun i x y hx hy => (key i x y hx hy).1 (h2 i x y hx hy))
      · intro h
        cases h with
        | list _ _ h1 h2 => exact ⟨h1, fun i x y hx hy => (key i x y hx hy).2 (h2 i x y hx hy)⟩
    | _ => simp [pyEq]; intro h; cases h
  | h6 as ih =>
    intro b ha hb
    cases b with
    | dict bs =>
      simp only [pyEq, pyEqItems_iff, Bool.and_eq_true, beq_iff_eq]
      cases ha with | dict _ hna ha => cases hb with | dict _ hnb hb =>
      have key : ∀ k x y, dget as k = some x → dget bs k = some y → (pyEq x y = true ↔ SamePython x y) := by
        intro k x y hx hy
        exact ih (k, x) (mem_of_dget hx) y (ha _ (mem_of_dget hx)) (hb _ (mem_of_dget hy))
      constructor
      · rintro ⟨h1, h2⟩
        have hsub : ∀ k ∈ dkeys as, k ∈ dkeys bs := by
          intro k hk
          obtain ⟨v, hv⟩ := (mem_dkeys_iff _ _).1 hk
          obtain ⟨w, hw, _⟩ := h2 _ (mem_of_dget hv)
          exact (mem_dkeys_iff _ _).2 ⟨w, hw⟩
        have hback := subset_back hna hsub (by simp [dkeys]; omega)
        refine .dict _ _ ?_ ?_
        · intro k
          rw [Bool.eq_iff_iff, Option.isSome_iff_exists, Option.isSome_iff_exists, ← mem_dkeys_iff, ← mem_dkeys_iff]
          exact ⟨hsub k, hback k⟩
        · intro k x y hx hy
          refine (key k x y hx hy).1 ?_
          obtain ⟨w, hw, hpy⟩ := h2 _ (mem_of_dget hx)
          simp only at hw hpy
          rw [hy] at hw; cases hw; exact hpy
      · intro h
        cases h with
        | dict _ _ h1 h2 =>
          have hsub : ∀ k, k ∈ dkeys as ↔ k ∈ dkeys bs := by
            intro k
            rw [mem_dkeys_iff, mem_dkeys_iff, ← Option.isSome_iff_exists, ← Option.isSome_iff_exists, h1]
          constructor
          · have a1 := length_le_of_subset _ _ hna (fun k hk => (hsub k).1 hk)
            have a2 := length_le_of_subset _ _ hnb (fun k hk => (hsub k).2 hk)
            simp [dkeys] at a1 a2; omega
          · intro p hp
            have hp' : dget as p.1 = some p.2 := dget_of_mem hna hp
            have := h1 p.1
            rw [hp'] at this
            obtain ⟨w, hw⟩ := Option.isSome_iff_exists.1 this.symm
            exact ⟨w, hw, (key _ _ _ hp' hw).2 (h2 _ _ _ hp' hw)⟩
    | _ => simp [pyEq]; intro h; cases h

/-- C91. Exactly what an enumeration accepts: a number where it is listed, and any other value where one is listed that *Python* takes for equal, with true
for 1 and false for 0 at any place in them. -/
theorem C91_exact (vs : List Doc) (d : Doc) (hd : KeysOk d) (hv : ∀ v ∈ vs, KeysOk v) :
    ruleEnum vs d = true ↔ (∃ v ∈ vs, SameJson v d) ∨ ((¬ ∃ i, d = .int i) ∧ ∃ v ∈ vs, SamePython d v) := by
  have same : ∀ a b, SameJson a b → SamePython b a := by
    intro a b h
    induction h with
    | null => exact .null
    | bool b => exact .bool b
    | int i => exact .int i
    | atom t => exact .atom t
    | str s => exact .str s
    | list xs ys h1 _ ih => exact .list _ _ h1.symm (fun i x y hx hy => ih i y x hy hx)
    | dict as bs h1 _ ih => exact .dict _ _ (fun k => (h1 k).symm) (fun k x y hx hy => ih k y x hy hx)
  by_cases hi : ∃ i, d = .int i
  · rw [C91_enum_partial vs d hd hv (.inl hi)]
    exact ⟨.inl, fun h => h.elim id (fun h => absurd hi h.1)⟩
  · have h1 : ruleEnum vs d = vs.any (pyEq d) := by
      unfold ruleEnum
      split
      · exact absurd ⟨_, rfl⟩ hi
      · exact absurd ⟨_, rfl⟩ hi
      · rfl
    rw [h1, List.any_eq_true]
    constructor
    · rintro ⟨v, hm, h⟩
      exact .inr ⟨hi, v, hm, (pyEq_same d v hd (hv v hm)).1 h⟩
    · rintro (⟨v, hm, h⟩ | ⟨_, v, hm, h⟩)
      · exact ⟨v, hm, (pyEq_same d v hd (hv v hm)).2 (same v d h)⟩
      · exact ⟨v, hm, (pyEq_same d v hd (hv v hm)).2 h⟩

/-- C91 fails: `True` passes where only the number one is listed, and so does it where it is an item. -/
theorem C91_true_refuted : (ruleEnum [.int 1] (.bool true) = true ∧ ¬ ∃ v ∈ [Doc.int 1], SameJson v (.bool true)) ∧
    (ruleEnum [.list [.bool true]] (.list [.int 1]) = true ∧
      ¬ ∃ v ∈ [Doc.list [.bool true]], SameJson v (.list [.int 1])) := by
  refine ⟨⟨rfl, ?_⟩, rfl, ?_⟩
  · rintro ⟨v, hv, h⟩
    simp at hv; subst hv; cases h
  · rintro ⟨v, hv, h⟩
    simp at hv; subst hv
    cases h with
    | list _ _ _ h => have := h 0 _ _ rfl rfl; cases this

example : ruleEnum [.bool true, .bool false] (.int 1) = false := rfl
example : ruleEnum [.str "red".toList, .dict [("a".toList, .int 5), ("b".toList, .null)]]
    (.dict [("b".toList, .null), ("a".toList, .int 5)]) = true := rfl

/-! ### C89: the document after a validation -/

theorem visit_eq (f : VFlags) (s : VSchema) (d : Doc) : visit f s d = visitKws f (propNames s.kws) s.kws d := by
  obtain ⟨kws, _, _, _, _⟩ := s
  simp [visit, VSchema.kws]

theorem once {s : VSchema} (h : DictSchema s) : Once s.kws := h.1

theorem names_ok {s : VSchema} (h : DictSchema s) :
    ∀ ps, .properties ps ∈ s.kws → dkeys ps = propNames s.kws ∧ (dkeys ps).Nodup := by
  intro ps hp
  rw [propNames_eq, propsOf_mem (once h) hp]
  exact ⟨rfl, h.2.2 ps hp⟩

private theorem asked_iff (f : VFlags) :
    (f.autoDefault.getD false || f.autoDefaultNulls.getD false || f.autoRemoveNulls.getD false) = true ↔ Asked f := by
  unfold Asked
  cases f.autoDefault <;> cases f.autoDefaultNulls <;> cases f.autoRemoveNulls <;> simp [or_assoc]

private theorem null_typeKw (kws : List VKw) (h : kws.Pairwise (fun a b => ¬ ∃ ts us, a = VKw.type ts ∧ b = .type us)) :
    isNullInType (typeKw kws) = true ↔ ∃ ts, .type ts ∈ kws ∧ .null ∈ ts := by
  induction kws with
  | nil => simp [typeKw, isNullInType]
  | cons kw t ih =>
    have ih' := ih (List.pairwise_cons.1 h).2
    cases kw with
    | type ts =>
      have hno : ∀ us, .type us ∉ t := fun us hu => (List.pairwise_cons.1 h).1 _ hu ⟨_, _, rfl, rfl⟩
      have e : isNullInType (typeKw (.type ts :: t)) = true ↔ JType.null ∈ ts := by
        simp only [typeKw, isNullInType, List.contains_iff_mem, List.mem_map]
        constructor
        · rintro ⟨x, hx, hx'⟩
          cases x with
          | null => exact hx
          | _ => exact absurd hx' (by decide)
        · intro hn; exact ⟨.null, hn, rfl⟩
      rw [e]
      constructor
      · intro hn; exact ⟨ts, by simp, hn⟩
      · rintro ⟨us, hm, hn⟩
        rcases List.mem_cons.1 hm with e | hm
        · cases e; exact hn
        · exact absurd hm (hno us)
    | _ => simpa [typeKw] using ih'

private theorem says_head {s : VSchema} (h : DictSchema s) : Says s s.head := by
  have hn := nullable_iff s.head
  obtain ⟨kws, d, a, b, c⟩ := s
  exact ⟨rfl, rfl, rfl, rfl, hn.symm.trans (null_typeKw kws h.2.1)⟩

private theorem fillVal_says {f : AutoFlags} {s : VSchema} {p q : PSchema} (hp : Says s p) (hq : Says s q) (g : Option Doc) :
    fillVal f p g = fillVal f q g := by
  have hn : isNullInType p.type = isNullInType q.type := by
    rw [Bool.eq_iff_iff, nullable_iff, nullable_iff, hp.nullable, hq.nullable]
  unfold fillVal
  rw [hp.default, hp.autoDefault, hp.autoDefaultNull, hp.autoRemoveNull, hn, hq.default, hq.autoDefault,
    hq.autoDefaultNull, hq.autoRemoveNull]

private theorem fillV_given (f : VFlags) (s : VSchema) (hs : DictSchema s) (g : Option Doc) : Given f s g (fillV f s g) := by
  unfold fillV
  split
  · next h => exact .filled _ _ _ ((asked_iff f).1 h) (says_head hs) (fillVal_filled ..)
  · next h => exact .asIs _ (fun hh => h ((asked_iff f).2 hh))

private theorem given_unique {f : VFlags} {s : VSchema} {g a b : Option Doc} (h1 : Given f s g a) (h2 : Given f s g b) :
    a = b := by
  rcases h1 with ⟨p, _, _, ha, hp, h1⟩ | ⟨_, ha⟩ <;> rcases h2 with ⟨q, _, _, hb, hq, h2⟩ | ⟨_, hb⟩
  · rw [filled_unique h1 (fillVal_filled ..), filled_unique h2 (fillVal_filled ..)]
    exact fillVal_says hp hq g
  · exact absurd ha hb
  · exact absurd hb ha
  · rfl

/-- C89: what a validation does to the document: declared properties are filled in as the arguments and the
schema say, and so on inside of properties, of additional properties and of items that have a schema; all
the rest stays. -/
theorem C89_document (f : VFlags) (s : VSchema) (hs : Throughout DictSchema s) (d : Doc) :
    Completed f s d (visit f s d).1 := by
  induction s using VSchema.ind generalizing d with
  | h s ih =>
    have hh := hs.here
    have ho := once hh
    rw [visit_eq]
    cases d with
    | dict kvs =>
      obtain ⟨kvs', h1, h2⟩ := kws_dict f (propNames s.kws) s.kws ho (names_ok hh) kvs
      rw [h1]
      have hdecl : ∀ ps k t, .properties ps ∈ s.kws → (k, t) ∈ ps →
          dget kvs' k = (fillV f t (dget kvs k)).map (fun v => (visit f t v).1) := by
        intro ps k t hp hk
        rw [h2, entryAfter, if_pos ((declared_iff ho k).1 ⟨ps, hp, List.mem_map.2 ⟨_, hk, rfl⟩⟩),
          propsOf_mem ho hp, dget_of_mem (hh.2.2 ps hp) hk]
      have hun : ∀ k, ¬ Declared s.kws k → dget kvs' k = match addOf s.kws with
          | some t => (dget kvs k).map (fun v => (visit f t v).1)
          | none => dget kvs k := by
        intro k hk
        rw [h2, entryAfter, if_neg (fun h => hk ((declared_iff ho k).2 h))]
        cases addOf s.kws <;> rfl
      refine .object s kvs kvs' ?_ ?_ ?_ ?_ ?_
      · intro ps k t g hp hk hg
        rw [hdecl ps k t hp hk, given_unique (fillV_given f t (hs.inside (.property s ps k t hp hk)).here _) hg]; simp
      · intro ps k t v v' hp hk hg hv
        rw [hdecl ps k t hp hk, given_unique (fillV_given f t (hs.inside (.property s ps k t hp hk)).here _) hg] at hv
        cases hv
        exact ih t (.property s ps k t hp hk) (hs.inside (.property s ps k t hp hk)) v
      · intro k hk
        rw [hun k hk]
        cases addOf s.kws <;> simp
      · intro t k v v' ht hk hv hv'
        rw [hun k hk, addOf_mem ho ht] at hv'
        simp only [hv] at hv'
        cases hv'
        exact ih t (.additional s t ht) (hs.inside (.additional s t ht)) v
      · intro hno k hk
        rw [hun k hk, addOf_none hno]
    | list xs =>
      rw [kws_list f _ _ ho]
      refine .list s xs _ ?_ ?_ ?_
      · cases itemsOf s.kws <;> simp
      · intro t i x y ht hx hy
        simp only [itemsOf_mem ho ht, List.getElem?_map, hx] at hy
        cases hy
        exact ih t (.items s t ht) (hs.inside (.items s t ht)) x
      · intro hno; simp only [itemsOf_none hno]
    | _ => rw [kws_scalar _ _ _ _ (by simp) (by simp)]; exact .scalar _ _ (by simp) (by simp)

/-! ### C90: the verdict -/

theorem isType_iff (f : VFlags) (t : JType) (d : Doc) : f.isType t d = true ↔ HasType f t d := by
  constructor
  · intro h
    cases t <;> cases d <;> simp [VFlags.isType] at h <;>
      first
      | exact .object _
      | exact .array _
      | exact .string _
      | exact .boolean _
      | exact .integer _
      | exact .whole _
      | exact .number _ h
      | exact .null _ ((isNull_iff _ _).1 h)
  · intro h
    cases h with
    | null _ h =>
      have := (isNull_iff f.toAutoFlags d).2 h
      cases d <;> simpa [VFlags.isType] using this
    | number t h => simpa [VFlags.isType] using h
    | _ => simp [VFlags.isType]

theorem noChange (f : VFlags) (props : List Str) (kws : List VKw) (h : ∀ kw ∈ kws, ¬ Changes kw) (d : Doc) :
    (visitKws f props kws d).1 = d := by
  induction kws generalizing d with
  | nil => simp [visitKws]
  | cons kw t ih =>
    simp only [visitKws]
    rw [kw_same f props kw d (h kw (by simp))]
    exact ih (fun k hk => h k (List.mem_cons_of_mem _ hk)) d

theorem clear_enum {vs : List Doc} (h : ∀ v ∈ vs, ClearValue v) (d : Doc) :
    ruleEnum vs d = true ↔ ∃ v ∈ vs, SameJson v d := by
  have gen : (∀ v ∈ vs, pyEq d v = true ↔ SameJson v d) → (vs.any (pyEq d) = true ↔ ∃ v ∈ vs, SameJson v d) := by
    intro hv
    rw [List.any_eq_true]
    constructor
    · rintro ⟨v, hm, hh⟩; exact ⟨v, hm, (hv v hm).1 hh⟩
    · rintro ⟨v, hm, hh⟩; exact ⟨v, hm, (hv v hm).2 hh⟩
  have num : ∀ i, (vs.any (unboolEq (.int i)) = true ↔ ∃ v ∈ vs, SameJson v (.int i)) := by
    intro i
    rw [List.any_eq_true]
    constructor
    · rintro ⟨v, hm, h⟩; exact ⟨v, hm, (unboolEq_iff i v).1 h⟩
    · rintro ⟨v, hm, h⟩; exact ⟨v, hm, (unboolEq_iff i v).2 h⟩
  unfold ruleEnum
  split
  · exact num 0
  · exact num 1
  · next h0 h1 =>
    refine gen ?_
    intro v hm
    have hc := h v hm
    cases hc with
    | null => cases d <;> simp [pyEq] <;> first | exact .null | (intro h; cases h)
    | bool b =>
      cases d with
      | bool x =>
        simp only [pyEq, beq_iff_eq]
        constructor
        · rintro rfl; exact .bool _
        · intro h; cases h; rfl
      | int i =>
        have h0' : i ≠ 0 := by rintro rfl; exact h0 rfl
        have h1' : i ≠ 1 := by rintro rfl; exact h1 rfl
        have : ¬ SameJson (.bool b) (.int i) := by intro h; cases h
        cases b <;> simp [pyEq, h0', h1', this]
      | _ => simp [pyEq]; intro h; cases h
    | int j hj0 hj1 =>
      cases d with
      | bool x =>
        have : ¬ SameJson (.int j) (.bool x) := by intro h; cases h
        cases x <;> simp [pyEq, hj0, hj1, this]
      | int i =>
        simp only [pyEq, beq_iff_eq]
        constructor
        · rintro rfl; exact .int _
        · intro h; cases h; rfl
      | _ => simp [pyEq]; intro h; cases h
    | atom t =>
      cases d with
      | atom x =>
        simp only [pyEq, beq_iff_eq]
        constructor
        · rintro rfl; exact .atom _
        · intro h; cases h; rfl
      | _ => simp [pyEq]; intro h; cases h
    | str t =>
      cases d with
      | str x =>
        simp only [pyEq, beq_iff_eq]
        constructor
        · rintro rfl; exact .str _
        · intro h; cases h; rfl
      | _ => simp [pyEq]; intro h; cases h

theorem after_notDict (f : VFlags) (props : List Str) (kws : List VKw) (ho : Once kws) (d : Doc)
    (h : ∀ kvs, d ≠ .dict kvs) : ∀ kvs, (visitKws f props kws d).1 ≠ .dict kvs := by
  cases d with
  | dict kvs => exact absurd rfl (h kvs)
  | list xs => intro kvs; rw [kws_list f props kws ho]; simp
  | _ => intro kvs; rw [kws_scalar _ _ _ _ (by simp) (by simp)]; simp

theorem after_notList (f : VFlags) (props : List Str) (kws : List VKw) (ho : Once kws)
    (hp : ∀ ps, .properties ps ∈ kws → dkeys ps = props ∧ (dkeys ps).Nodup) (d : Doc)
    (h : ∀ xs, d ≠ .list xs) : ∀ xs, (visitKws f props kws d).1 ≠ .list xs := by
  cases d with
  | list xs => exact absurd rfl (h xs)
  | dict kvs => intro xs; obtain ⟨kvs', h1, _⟩ := kws_dict f props kws ho hp kvs; rw [h1]; simp
  | _ => intro kvs; rw [kws_scalar _ _ _ _ (by simp) (by simp)]; simp

theorem after_type (f : VFlags) (props : List Str) (kws : List VKw) (ho : Once kws)
    (hp : ∀ ps, .properties ps ∈ kws → dkeys ps = props ∧ (dkeys ps).Nodup) (d : Doc) (t : JType) :
    f.isType t (visitKws f props kws d).1 = f.isType t d := by
  cases d with
  | dict kvs =>
    obtain ⟨kvs', h1, _⟩ := kws_dict f props kws ho hp kvs
    rw [h1]; cases t <;> simp [VFlags.isType, AutoFlags.isNull]
  | list xs => rw [kws_list f props kws ho]; cases t <;> simp [VFlags.isType, AutoFlags.isNull]
  | _ => rw [kws_scalar _ _ _ _ (by simp) (by simp)]

private theorem holds_notDict_required {f kws ns d} (h : ∀ kvs, d ≠ Doc.dict kvs) : Holds f kws (.required ns) d :=
  .required _ _ _ (fun kvs _ e => absurd e (h kvs))

/-- A keyword finds nothing wrong if and only if what it asks for is so in the end. -/
private theorem kw_verdict (f : VFlags) (s : VSchema) (hd : DictSchema s) (hc : ClearEnums s)
    (ih : ∀ t, PartOf s t → ∀ d, (visit f t d).2 = [] ↔ Valid f t (visit f t d).1)
    (kw : VKw) (t : List VKw) (hk : kw ∈ s.kws) (ht : ∀ k ∈ t, k ∈ s.kws) (ho : Once (kw :: t))
    (hset : ∀ b ∈ t, ¬ Spoils kw b) (d : Doc) :
    (visitKw f (propNames s.kws) kw d).2 = [] ↔
      Holds f s.kws kw (visitKws f (propNames s.kws) t (visitKw f (propNames s.kws) kw d).1).1 := by
  have hpt : ∀ ps, .properties ps ∈ t → dkeys ps = propNames s.kws ∧ (dkeys ps).Nodup :=
    fun ps hp => names_ok hd ps (ht _ hp)
  have hon := once hd
  cases kw with
  | type ts =>
    simp only [visitKw]
    constructor
    · intro h
      split at h
      · next h' =>
        obtain ⟨x, hx, hx'⟩ := List.any_eq_true.1 h'
        refine .type _ _ x _ hx ((isType_iff ..).1 ?_)
        rw [after_type f _ t ho.tail hpt]; exact hx'
      · cases h
    · intro h
      cases h with
      | type _ _ x _ hx hx' =>
        rw [← isType_iff, after_type f _ t ho.tail hpt] at hx'
        rw [if_pos (List.any_eq_true.2 ⟨x, hx, hx'⟩)]
  | properties ps =>
    obtain ⟨e1, e2⟩ := names_ok hd ps hk
    cases d with
    | dict kvs =>
      simp only [visitKw]
      obtain ⟨kvs', h1, h2⟩ := kws_dict f (propNames s.kws) t ho.tail hpt (visitOwn f ps (fillProps f ps kvs)).1
      rw [h1, visitOwn_errs f ps _ e2]
      have hget : ∀ k u, (k, u) ∈ ps → dget kvs' k = (dget (fillProps f ps kvs) k).map (fun v => (visit f u v).1) := by
        intro k u hm
        rw [h2, entryAfter, if_pos (by rw [← e1]; exact List.mem_map.2 ⟨_, hm, rfl⟩), propsOf_nil ho.props,
          visitOwn_get f ps _ e2, dget_of_mem e2 hm]
        rfl
      constructor
      · intro h
        refine .properties _ _ _ ?_
        intro kvs2 k u v e hm hv
        cases e
        rw [hget k u hm] at hv
        cases hw : dget (fillProps f ps kvs) k with
        | none => rw [hw] at hv; cases hv
        | some w =>
          rw [hw] at hv; cases hv
          exact (ih u (.property s ps k u hk hm) w).1 (h k u w hm hw)
      · intro h k u w hm hw
        cases h with
        | properties _ _ _ h =>
          refine (ih u (.property s ps k u hk hm) w).2 (h kvs' k u _ rfl hm ?_)
          rw [hget k u hm, hw]; rfl
    | _ =>
      simp only [visitKw, true_iff]
      refine .properties _ _ _ ?_
      intro kvs k u v e
      exact absurd e (after_notDict f _ t ho.tail _ (by simp) kvs)
  | required ns =>
    have hno : ∀ ps, .properties ps ∉ t := fun ps hp => hset _ hp (.required ns ps)
    cases d with
    | dict kvs =>
      simp only [visitKw, List.map_eq_nil_iff, List.filter_eq_nil_iff]
      obtain ⟨kvs', h1, h2⟩ := kws_dict f (propNames s.kws) t ho.tail hpt kvs
      rw [h1]
      have hget : ∀ k, (dget kvs' k).isSome = (dget kvs k).isSome := by
        intro k
        rw [h2, entryAfter, propsOf_nil hno]
        split
        · rfl
        · cases addOf t <;> simp
      have hin : ∀ n, (dkeys kvs).contains n = true ↔ (dget kvs n).isSome = true := by
        intro n
        rw [List.contains_iff_mem, mem_dkeys_iff, Option.isSome_iff_exists]
      constructor
      · intro h
        refine .required _ _ _ ?_
        intro kvs2 n e hn
        cases e
        rw [hget, ← hin]
        simpa using h n hn
      · intro h n hn
        cases h with
        | required _ _ _ h =>
          have := h kvs' n rfl hn
          rw [hget, ← hin] at this
          rw [this]; simp
    | _ =>
      simp only [visitKw, true_iff]
      exact holds_notDict_required (after_notDict f _ t ho.tail _ (by simp))
  | additional b =>
    cases b with
    | true =>
      constructor
      · intro _; exact .allowed _ _
      · intro _; cases d <;> simp [visitKw]
    | false =>
      cases d with
      | dict kvs =>
        simp only [visitKw]
        obtain ⟨kvs', h1, h2⟩ := kws_dict f (propNames s.kws) t ho.tail hpt kvs
        rw [h1]
        have hget : ∀ k, k ∉ propNames s.kws → (dget kvs' k).isSome = (dget kvs k).isSome := by
          intro k hk
          rw [h2, entryAfter, if_neg hk]
          cases addOf t <;> simp
        constructor
        · intro h
          have h' : (extraKeys (propNames s.kws) kvs) = [] := by
            split at h
            · next h' => simpa using h'
            · cases h
          refine .additional _ _ ?_
          intro kvs2 k e hk
          cases e
          rw [declared_iff hon]
          refine Classical.byContradiction fun hn => ?_
          rw [hget k hn] at hk
          have := (mem_extraKeys (propNames s.kws) kvs k).2 ⟨hk, hn⟩
          rw [h'] at this; cases this
        · intro h
          cases h with
          | additional _ _ h =>
            have : extraKeys (propNames s.kws) kvs = [] := by
              refine List.eq_nil_iff_forall_not_mem.2 ?_
              intro k hk
              obtain ⟨h3, h4⟩ := (mem_extraKeys ..).1 hk
              exact h4 ((declared_iff hon k).1 (h kvs' k rfl (by rw [hget k h4]; exact h3)))
            simp [this]
      | _ =>
        simp only [visitKw, true_iff]
        exact .additional _ _ (fun kvs k e => absurd e (after_notDict f _ t ho.tail _ (by simp) kvs))
  | additionalS u =>
    cases d with
    | dict kvs =>
      simp only [visitKw]
      obtain ⟨kvs', h1, h2⟩ := kws_dict f (propNames s.kws) t ho.tail hpt
        (visitKeys (fun v => visit f u v) (extraKeys (propNames s.kws) kvs) kvs).1
      rw [h1, visitKeys_errs _ _ _ (extraKeys_nodup ..)]
      have hget : ∀ k, k ∉ propNames s.kws → dget kvs' k = (dget kvs k).map (fun v => (visit f u v).1) := by
        intro k hk
        rw [h2, entryAfter, if_neg hk, addOf_none ho.add, visitKeys_get _ _ _ (extraKeys_nodup ..)]
        simp only [mem_extraKeys, hk, not_false_eq_true, and_true]
        cases dget kvs k <;> simp
      constructor
      · intro h
        refine .additionalS _ _ _ ?_
        intro kvs2 k v e hnd hv
        cases e
        rw [declared_iff hon] at hnd
        rw [hget k hnd] at hv
        cases hw : dget kvs k with
        | none => rw [hw] at hv; cases hv
        | some w =>
          rw [hw] at hv; cases hv
          exact (ih u (.additional s u hk) w).1 (h k w ((mem_extraKeys ..).2 ⟨by simp [hw], hnd⟩) hw)
      · intro h k w hm hw
        obtain ⟨_, hnd⟩ := (mem_extraKeys ..).1 hm
        cases h with
        | additionalS _ _ _ h =>
          refine (ih u (.additional s u hk) w).2 (h kvs' k _ rfl (by rw [declared_iff hon]; exact hnd) ?_)
          rw [hget k hnd, hw]; rfl
    | _ =>
      simp only [visitKw, true_iff]
      exact .additionalS _ _ _ (fun kvs k v e => absurd e (after_notDict f _ t ho.tail _ (by simp) kvs))
  | propertyNames u =>
    have hno : ∀ ps, .properties ps ∉ t := fun ps hp => hset _ hp (.names u ps)
    cases d with
    | dict kvs =>
      simp only [visitKw, List.flatMap_eq_nil_iff, List.map_eq_nil_iff]
      obtain ⟨kvs', h1, h2⟩ := kws_dict f (propNames s.kws) t ho.tail hpt kvs
      rw [h1]
      have hget : ∀ k, (dget kvs' k).isSome = (dget kvs k).isSome := by
        intro k
        rw [h2, entryAfter, propsOf_nil hno]
        split
        · rfl
        · cases addOf t <;> simp
      have hstr : ∀ k, (visit f u (.str k)).1 = .str k := by
        intro k; rw [visit_eq, kws_scalar _ _ _ _ (by simp) (by simp)]
      have hv : ∀ k, (visit f u (.str k)).2 = [] ↔ Valid f u (.str k) := by
        intro k
        have := ih u (.names s u hk) (.str k)
        rwa [hstr] at this
      constructor
      · intro h
        refine .propertyNames _ _ _ ?_
        intro kvs2 k e hs
        cases e
        rw [hget, Option.isSome_iff_exists, ← mem_dkeys_iff] at hs
        exact (hv k).1 (h k hs)
      · intro h k hm
        cases h with
        | propertyNames _ _ _ h =>
          refine (hv k).2 (h kvs' k rfl ?_)
          rw [hget, Option.isSome_iff_exists, ← mem_dkeys_iff]; exact hm
    | _ =>
      simp only [visitKw, true_iff]
      exact .propertyNames _ _ _ (fun kvs k e => absurd e (after_notDict f _ t ho.tail _ (by simp) kvs))
  | enum vs =>
    simp only [visitKw]
    rw [noChange f _ t (fun k hk' hch => hset k hk' (.enum vs k hch))]
    have := clear_enum (hc vs hk) d
    constructor
    · intro h
      split at h
      · next h' =>
        obtain ⟨v, hv, hs⟩ := this.1 h'
        exact .enum _ _ v _ hv hs
      · cases h
    · intro h
      cases h with
      | enum _ _ v _ hv hs => rw [if_pos (this.2 ⟨v, hv, hs⟩)]
  | items u =>
    cases d with
    | list xs =>
      simp only [visitKw, visitItems_errs, visitItems_fst]
      rw [kws_list f _ t ho.tail, itemsOf_none ho.items]
      constructor
      · intro h
        refine .items _ _ _ ?_
        intro ys y e hy
        cases e
        obtain ⟨x, hx, rfl⟩ := List.mem_map.1 hy
        exact (ih u (.items s u hk) x).1 (h x hx)
      · intro h x hx
        cases h with
        | items _ _ _ h => exact (ih u (.items s u hk) x).2 (h _ _ rfl (List.mem_map.2 ⟨x, hx, rfl⟩))
    | _ =>
      simp only [visitKw, true_iff]
      exact .items _ _ _ (fun xs x e => absurd e (after_notList f _ t ho.tail hpt _ (by simp) xs))

/-- C90: a validation finds nothing wrong if and only if the document *it leaves* is as the schema asks, when
in no schema the properties come after keywords that they may spoil, and enumerations list scalars other than
0 and 1. See `C90_order_refuted` and `C91_true_refuted`. -/
theorem C90_verdict_partial (f : VFlags) (s : VSchema) (hd : Throughout DictSchema s) (ho : Throughout Settled s)
    (hc : Throughout ClearEnums s) (d : Doc) : (visit f s d).2 = [] ↔ Valid f s (visit f s d).1 := by
  induction s using VSchema.ind generalizing d with
  | h s ih =>
    have hw := fun t (w : PartOf s t) => ih t w (hd.inside w) (ho.inside w) (hc.inside w)
    have key : ∀ (t : List VKw), (∀ k ∈ t, k ∈ s.kws) → Once t → t.Pairwise (fun a b => ¬ Spoils a b) → ∀ d,
        (visitKws f (propNames s.kws) t d).2 = [] ↔
          ∀ kw ∈ t, Holds f s.kws kw (visitKws f (propNames s.kws) t d).1 := by
      intro t
      induction t with
      | nil => intro _ _ _ d; simp [visitKws]
      | cons kw t iht =>
        intro hm hon hset d
        have h1 := kw_verdict f s hd.here hc.here hw kw t (hm kw (by simp)) (fun k hk => hm k (List.mem_cons_of_mem _ hk))
          hon (List.pairwise_cons.1 hset).1 d
        have h2 := iht (fun k hk => hm k (List.mem_cons_of_mem _ hk)) hon.tail (List.pairwise_cons.1 hset).2
          (visitKw f (propNames s.kws) kw d).1
        simp only [visitKws, List.append_eq_nil_iff, List.mem_cons, forall_eq_or_imp]
        rw [h1, h2]
    rw [visit_eq, key s.kws (fun k hk => hk) (once hd.here) ho.here]
    constructor
    · intro h; exact .mk _ _ h
    · intro h; cases h; assumption

/-! ### C90: validating again -/

private theorem visit_null (f : VFlags) (s : VSchema) (d : Doc) (h : f.toAutoFlags.isNull d = true) : (visit f s d).1 = d := by
  rw [visit_eq]
  cases d with
  | dict kvs => simp [AutoFlags.isNull] at h
  | list xs => simp [AutoFlags.isNull] at h
  | _ => rw [kws_scalar _ _ _ _ (by simp) (by simp)]

private theorem visit_isNull (f : VFlags) (s : VSchema) (hd : DictSchema s) (d : Doc) :
    f.toAutoFlags.isNull (visit f s d).1 = f.toAutoFlags.isNull d := by
  rw [visit_eq]
  exact after_type f _ _ (once hd) (names_ok hd) d .null

private theorem fillV_stable (f : VFlags) (t : VSchema) (hd : DictSchema t) (g : Option Doc)
    (hst : ¬ (¬ NullAllowed t ∧ t.default.isSome ∧ On t.autoDefault f.autoDefault ∧
      On t.autoRemoveNull f.autoRemoveNulls ∧ ¬ On t.autoDefaultNull f.autoDefaultNulls)) :
    fillV f t ((fillV f t g).map (fun v => (visit f t v).1)) = (fillV f t g).map (fun v => (visit f t v).1) := by
  unfold fillV
  split
  · exact fill_stable_by f.toAutoFlags t.head _ (visit_isNull f t hd) (visit_null f t) g (by
      have hh := says_head hd
      rw [hh.nullable, hh.default, hh.autoDefault, hh.autoDefaultNull, hh.autoRemoveNull]
      exact hst)
  · rfl

private theorem fillProps_stable (f : VFlags) (ps : List (Str × VSchema)) (kvs : List (Str × Doc))
    (h : ∀ p ∈ ps, fillV f p.2 (dget kvs p.1) = dget kvs p.1) : fillProps f ps kvs = kvs := by
  unfold fillProps
  split
  · next hi =>
    refine loop_stable _ _ _ ?_
    intro q hq
    obtain ⟨p, hp, rfl⟩ := List.mem_map.1 hq
    have := h p hp
    unfold fillV at this
    rwa [if_pos hi] at this
  · rfl

private theorem visitOwn_stable (f : VFlags) (ps : List (Str × VSchema)) (kvs : List (Str × Doc))
    (h : ∀ p ∈ ps, ∀ v, dget kvs p.1 = some v → (visit f p.2 v).1 = v) : (visitOwn f ps kvs).1 = kvs := by
  induction ps with
  | nil => simp [visitOwn]
  | cons a t ih =>
    obtain ⟨p, s⟩ := a
    have ih' := ih (fun q hq => h q (List.mem_cons_of_mem _ hq))
    rw [visitOwn]
    cases hv : dget kvs p with
    | none => exact ih'
    | some v =>
      have := h (p, s) (by simp) v hv
      simp only at this ⊢
      rw [this, dset_same hv]; exact ih'

private theorem visitKeys_stable (w : Doc → Doc × List VErr) (ks : List Str) (kvs : List (Str × Doc))
    (h : ∀ k ∈ ks, ∀ v, dget kvs k = some v → (w v).1 = v) : (visitKeys w ks kvs).1 = kvs := by
  induction ks with
  | nil => simp [visitKeys]
  | cons k t ih =>
    have ih' := ih (fun q hq => h q (List.mem_cons_of_mem _ hq))
    rw [visitKeys]
    cases hv : dget kvs k with
    | none => exact ih'
    | some v =>
      simp only
      rw [h k (by simp) v hv, dset_same hv]; exact ih'

private theorem kws_stable (f : VFlags) (props : List Str) (kws : List VKw) (d : Doc)
    (h : ∀ kw ∈ kws, (visitKw f props kw d).1 = d) : (visitKws f props kws d).1 = d := by
  induction kws with
  | nil => simp [visitKws]
  | cons kw t ih =>
    simp only [visitKws]
    rw [h kw (by simp)]
    exact ih (fun k hk => h k (List.mem_cons_of_mem _ hk))

/-- C90: validating again changes nothing more, when no property is one whose nulls are removed and that is
filled in when missing. See `C29_again_refuted` for those. -/
theorem C90_again_partial (f : VFlags) (s : VSchema) (hd : Throughout DictSchema s) (hst : Throughout (Steady f) s)
    (d : Doc) : (visit f s (visit f s d).1).1 = (visit f s d).1 := by
  induction s using VSchema.ind generalizing d with
  | h s ih =>
    have hh := hd.here
    have ho := once hh
    have hw := fun t (w : PartOf s t) => ih t w (hd.inside w) (hst.inside w)
    rw [visit_eq, visit_eq]
    refine kws_stable f _ _ _ ?_
    intro kw hkw
    by_cases hch : Changes kw
    · cases d with
      | dict kvs =>
        obtain ⟨kvs', h1, h2⟩ := kws_dict f (propNames s.kws) s.kws ho (names_ok hh) kvs
        rw [h1]
        cases hch with
        | properties ps =>
          have hget : ∀ p ∈ ps, dget kvs' p.1 = (fillV f p.2 (dget kvs p.1)).map (fun v => (visit f p.2 v).1) := by
            intro p hp
            rw [h2, entryAfter, if_pos ((declared_iff ho p.1).1 ⟨ps, hkw, List.mem_map.2 ⟨_, hp, rfl⟩⟩),
              propsOf_mem ho hkw, dget_of_mem (hh.2.2 ps hkw) hp]
          simp only [visitKw]
          rw [fillProps_stable, visitOwn_stable]
          · intro p hp v hv
            rw [hget p hp] at hv
            cases hg : fillV f p.2 (dget kvs p.1) with
            | none => rw [hg] at hv; cases hv
            | some w =>
              rw [hg] at hv; cases hv
              exact hw p.2 (.property s ps p.1 p.2 hkw hp) w
          · intro p hp
            rw [hget p hp]
            exact fillV_stable f p.2 (hd.inside (.property s ps p.1 p.2 hkw hp)).here _ (hst.here ps p.1 p.2 hkw hp)
        | additionalS u =>
          simp only [visitKw]
          rw [visitKeys_stable]
          intro k hk v hv
          obtain ⟨_, hnd⟩ := (mem_extraKeys ..).1 hk
          rw [h2, entryAfter, if_neg hnd, addOf_mem ho hkw] at hv
          cases hg : dget kvs k with
          | none => rw [hg] at hv; cases hv
          | some w =>
            rw [hg] at hv; cases hv
            exact hw u (.additional s u hkw) w
        | items u => simp [visitKw]
      | list xs =>
        rw [kws_list f _ _ ho]
        cases hch with
        | items u =>
          simp only [itemsOf_mem ho hkw, visitKw, visitItems_fst, List.map_map]
          congr 1
          refine List.map_congr_left ?_
          intro x _
          exact hw u (.items s u hkw) x
        | _ => simp [visitKw]
      | _ =>
        rw [kws_scalar _ _ _ _ (by simp) (by simp)]
        cases hch <;> simp [visitKw]
    · exact kw_same f _ kw _ hch

/-- C90: validating again finds something wrong if and only if it did so the first time, under the conditions
above. See `C90_order_refuted`. -/
theorem C90_same_verdict_partial (f : VFlags) (s : VSchema) (hd : Throughout DictSchema s) (ho : Throughout Settled s)
    (hc : Throughout ClearEnums s) (hst : Throughout (Steady f) s) (d : Doc) :
    (visit f s (visit f s d).1).2 = [] ↔ (visit f s d).2 = [] := by
  rw [C90_verdict_partial f s hd ho hc, C90_verdict_partial f s hd ho hc, C90_again_partial f s hd hst]

/-! #### Cases -/

def petLeaf (kws : List VKw) (d : Option Doc) : VSchema := .mk kws d none none none

def petFlags : VFlags := ⟨⟨some true, some false, some true, fun _ => false⟩, fun _ => true⟩

/-- `{"type": "object", "properties": {"a": {"type": "integer", "default": 1}, "b": {"type": "string"}},
"additionalProperties": {"items": {"type": "null"}}, "required": ["a"], "propertyNames": {"enum": ["a", "b", "c"]}}` -/
def petSchema : VSchema := petLeaf [.type [.object],
  .properties [("a".toList, petLeaf [.type [.integer]] (some (.int 1))), ("b".toList, petLeaf [.type [.string]] none)],
  .additionalS (petLeaf [.items (petLeaf [.type [.null]] none)] none),
  .required ["a".toList],
  .propertyNames (petLeaf [.enum [.str "a".toList, .str "b".toList, .str "c".toList]] none)] none

private def isNil {α : Type} : List α → Bool
  | [] => true
  | _ => false

private theorem isNil_iff {α : Type} (l : List α) : isNil l = true ↔ l = [] := by cases l <;> simp [isNil]

/-- Schemas without schemas inside. -/
private theorem within_leaf {kws d t} (h : PartOf (petLeaf kws d) t)
    (hk : ∀ kw ∈ kws, ¬ Changes kw ∧ ∀ s, kw ≠ .propertyNames s) : False := by
  cases h with
  | property ps k _ h1 _ => exact (hk _ h1).1 (.properties ps)
  | additional _ h1 => exact (hk _ h1).1 (.additionalS _)
  | names _ h1 => exact (hk _ h1).2 _ rfl
  | items _ h1 => exact (hk _ h1).1 (.items _)

private theorem leaf_all {P : VSchema → Prop} {kws d} (h : P (petLeaf kws d))
    (hk : ∀ kw ∈ kws, ¬ Changes kw ∧ ∀ s, kw ≠ .propertyNames s) : Throughout P (petLeaf kws d) :=
  .mk _ h (fun _ w => (within_leaf w hk).elim)

private theorem nochange_type (ts) : ¬ Changes (.type ts) ∧ ∀ s, VKw.type ts ≠ .propertyNames s := by
  refine ⟨(fun h => by cases h), fun s h => by cases h⟩

private theorem nochange_enum (ts) : ¬ Changes (.enum ts) ∧ ∀ s, VKw.enum ts ≠ .propertyNames s := by
  refine ⟨(fun h => by cases h), fun s h => by cases h⟩

theorem full_all {P : VSchema → Prop} (h0 : P petSchema) (h1 : ∀ ts d, d = none ∨ d = some (.int 1) → P (petLeaf [.type ts] d))
    (h2 : ∀ s, P (petLeaf [.items s] none))
    (h3 : P (petLeaf [.enum [.str "a".toList, .str "b".toList, .str "c".toList]] none)) : Throughout P petSchema := by
  refine .mk _ h0 ?_
  intro t ht
  have ty : ∀ ts d, d = none ∨ d = some (.int 1) → Throughout P (petLeaf [.type ts] d) :=
    fun ts d hd => leaf_all (h1 ts d hd) (by simp [nochange_type])
  cases ht with
  | property ps k _ hm hk =>
    simp [petSchema, petLeaf, VSchema.kws] at hm
    subst hm
    simp at hk
    rcases hk with ⟨_, rfl⟩ | ⟨_, rfl⟩ <;> exact ty _ _ (by simp)
  | additional _ hm =>
    simp [petSchema, petLeaf, VSchema.kws] at hm
    subst hm
    refine .mk _ (h2 _) ?_
    intro t ht
    cases ht with
    | property ps k _ hm hk => simp [petLeaf, VSchema.kws] at hm
    | additional _ hm => simp [petLeaf, VSchema.kws] at hm
    | names _ hm => simp [petLeaf, VSchema.kws] at hm
    | items _ hm =>
      simp [petLeaf, VSchema.kws] at hm
      subst hm
      exact ty _ _ (by simp)
  | names _ hm =>
    simp [petSchema, petLeaf, VSchema.kws] at hm
    subst hm
    exact leaf_all h3 (by simp [nochange_enum])
  | items _ hm => simp [petSchema, petLeaf, VSchema.kws] at hm

theorem petSchema_dict : Throughout DictSchema petSchema := by
  refine full_all ⟨by simp [petSchema, petLeaf, VSchema.kws], by simp [petSchema, petLeaf, VSchema.kws], ?_⟩ ?_ ?_ ?_
  · intro ps hp
    simp [petSchema, petLeaf, VSchema.kws] at hp
    subst hp; decide
  all_goals (intros; exact ⟨by simp [petLeaf, VSchema.kws], by simp [petLeaf, VSchema.kws], by intro ps hp; simp [petLeaf, VSchema.kws] at hp⟩)

theorem petSchema_settled : Throughout Settled petSchema := by
  refine full_all ?_ ?_ ?_ ?_
  · simp only [Settled, petSchema, petLeaf, VSchema.kws, List.pairwise_cons, List.mem_cons, List.not_mem_nil, or_false,
      forall_eq_or_imp, forall_eq]
    refine ⟨⟨?_, ?_, ?_, ?_⟩, ⟨?_, ?_, ?_⟩, ⟨?_, ?_⟩, ?_, ?_, .nil⟩ <;> first | (intro h; cases h; done) | (intro b hb; cases hb)
  all_goals (intros; simp [Settled, petLeaf, VSchema.kws])

theorem petSchema_clear : Throughout ClearEnums petSchema := by
  refine full_all ?_ ?_ ?_ ?_
  · intro vs hv; simp [petSchema, petLeaf, VSchema.kws] at hv
  · intro ts d _ vs hv; simp [petLeaf, VSchema.kws] at hv
  · intro s vs hv; simp [petLeaf, VSchema.kws] at hv
  · intro vs hv
    simp [petLeaf, VSchema.kws] at hv
    subst hv
    intro v hv
    simp at hv
    rcases hv with rfl | rfl | rfl <;> exact .str _

private def noFillFlags : VFlags := ⟨⟨some true, some true, some false, fun _ => false⟩, fun _ => true⟩

private theorem full_steady : Throughout (Steady noFillFlags) petSchema := by
  refine full_all ?_ ?_ ?_ ?_
  · intro ps k t hp hm h
    simp [petSchema, petLeaf, VSchema.kws] at hp
    subst hp
    simp at hm
    rcases hm with ⟨_, rfl⟩ | ⟨_, rfl⟩ <;> simp [On, VSchema.autoRemoveNull, noFillFlags] at h
  · intro ts d _ ps k t hp; simp [petLeaf, VSchema.kws] at hp
  · intro s ps k t hp; simp [petLeaf, VSchema.kws] at hp
  · intro ps k t hp; simp [petLeaf, VSchema.kws] at hp

/-- `{"c": [null]}` passes with `a` filled in. -/
example : (visit petFlags petSchema (.dict [("c".toList, .list [.null])])).1 =
    .dict [("c".toList, .list [.null]), ("a".toList, .int 1)] := rfl
example : isNil (visit petFlags petSchema (.dict [("c".toList, .list [.null])])).2 = true := rfl
example : Valid petFlags petSchema (.dict [("c".toList, .list [.null]), ("a".toList, .int 1)]) :=
  (C90_verdict_partial petFlags petSchema petSchema_dict petSchema_settled petSchema_clear (.dict [("c".toList, .list [.null])])).1
    ((isNil_iff _).1 rfl)
/-- `{"c": [5], "d": null}` does not. -/
example : isNil (visit petFlags petSchema (.dict [("c".toList, .list [.int 5]), ("d".toList, .null)])).2 = false := rfl
example (d : Doc) : (visit noFillFlags petSchema (visit noFillFlags petSchema d).1).1 = (visit noFillFlags petSchema d).1 :=
  C90_again_partial noFillFlags petSchema petSchema_dict full_steady d

private def reqFirst (d : Option Doc) (ts : List JType) : VSchema :=
  petLeaf [.required ["a".toList], .properties [("a".toList, petLeaf [.type ts] d)]] none

private theorem reqFirst_dict (d ts) : Throughout DictSchema (reqFirst d ts) := by
  refine .mk _ ⟨by simp [reqFirst, petLeaf, VSchema.kws], by simp [reqFirst, petLeaf, VSchema.kws], ?_⟩ ?_
  · intro ps hp; simp [reqFirst, petLeaf, VSchema.kws] at hp; subst hp; simp [dkeys]
  · intro t ht
    cases ht with
    | property ps k _ hm hk =>
      simp [reqFirst, petLeaf, VSchema.kws] at hm
      subst hm
      simp at hk
      obtain ⟨_, rfl⟩ := hk
      refine leaf_all ⟨by simp [petLeaf, VSchema.kws], by simp [petLeaf, VSchema.kws], by intro ps hp; simp [petLeaf, VSchema.kws] at hp⟩ (by simp [nochange_type])
    | additional _ hm => simp [reqFirst, petLeaf, VSchema.kws] at hm
    | names _ hm => simp [reqFirst, petLeaf, VSchema.kws] at hm
    | items _ hm => simp [reqFirst, petLeaf, VSchema.kws] at hm

/-- C90 fails when `required` comes before `properties`: a missing property is reported though its default is
filled in (and validating again finds nothing), and a null is taken for present though it is then removed
(and validating again finds it missing). -/
theorem C90_order_refuted :
    (∃ f s d, Throughout DictSchema s ∧ (visit f s d).2 ≠ [] ∧ Valid f s (visit f s d).1 ∧
      (visit f s (visit f s d).1).2 = []) ∧
    (∃ f s d, Throughout DictSchema s ∧ (visit f s d).2 = [] ∧ ¬ Valid f s (visit f s d).1 ∧
      (visit f s (visit f s d).1).2 ≠ []) := by
  constructor
  · refine ⟨petFlags, reqFirst (some (.int 1)) [.integer], .dict [], reqFirst_dict _ _, ?_, ?_, (isNil_iff _).1 rfl⟩
    · intro h; rw [← isNil_iff] at h; exact absurd h (by decide +kernel)
    · have : (visit petFlags (reqFirst (some (.int 1)) [.integer]) (.dict [])).1 = .dict [("a".toList, .int 1)] := rfl
      rw [this]
      refine .mk _ _ ?_
      intro kw hkw
      simp [reqFirst, petLeaf, VSchema.kws] at hkw
      rcases hkw with rfl | rfl
      · refine .required _ _ _ ?_
        intro kvs n e hn
        cases e; simp at hn; subst hn; rfl
      · refine .properties _ _ _ ?_
        intro kvs k s v e hm hv
        cases e
        simp at hm
        obtain ⟨rfl, rfl⟩ := hm
        simp [dget_cons] at hv
        subst hv
        refine .mk _ _ ?_
        intro kw hkw
        simp [VSchema.kws] at hkw
        subst hkw
        exact .type _ _ .integer _ (by simp) (.integer 1)
  · refine ⟨petFlags, reqFirst none [.integer], .dict [("a".toList, .null)], reqFirst_dict _ _, (isNil_iff _).1 rfl, ?_, ?_⟩
    · have : (visit petFlags (reqFirst none [.integer]) (.dict [("a".toList, .null)])).1 = .dict [] := rfl
      rw [this]
      intro h
      cases h with
      | mk _ _ h =>
        have := h (.required ["a".toList]) (by simp [reqFirst, petLeaf, VSchema.kws])
        cases this with
        | required _ _ _ h => have := h [] "a".toList rfl (by simp); simp at this
    · intro h; rw [← isNil_iff] at h; exact absurd h (by decide +kernel)

/-! ### Building against schemas -/

/-- C90: a model that was built is as its schema asks, under the conditions above, and it is what the submodels
merge into, with defaults filled in. -/
theorem C90_built_partial (f : VFlags) (pre post : VSchema) (subs : List Doc) (m : Doc) (hd : Throughout DictSchema post)
    (ho : Throughout Settled post) (hc : Throughout ClearEnums post) (hb : build (schemaMaker f pre post) subs = .ok m) :
    Valid f post m ∧ ∃ u, MergedAll .null (subs.map (fun d => (visit f pre d).1)) u ∧ Completed f post u m := by
  rw [C27_model] at hb
  obtain ⟨_, u, h1, h2, _, h3⟩ := hb
  simp only [schemaMaker] at h1 h2 h3
  cases h3
  simp only [if_true] at h1
  rw [if_neg (by simp)] at h2 ⊢
  exact ⟨(C90_verdict_partial f post hd ho hc u).1 h2, u, h1, C89_document f post hd u⟩

example : ∃ m, build (schemaMaker petFlags (petLeaf [] none) petSchema) [.dict [("c".toList, .list [.null])], .dict [("b".toList, .str [])]]
    = .ok m := ⟨_, rfl⟩

end Props
