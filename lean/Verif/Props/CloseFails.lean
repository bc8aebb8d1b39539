import Verif.Props.Backend
/-
C128: when a sheet cannot be closed no other sheet is lost.
-/
namespace Props
open Py Model Spec Lemmas

theorem closeUntil_facts (fails : SheetObj → Bool) : ∀ l : List SheetObj,
    ((closeUntil fails l).2 = false → (closeUntil fails l).1 = l ∧ ∀ s ∈ l, fails s = false) ∧
    ((closeUntil fails l).2 = true → ∃ s rest, l = (closeUntil fails l).1 ++ s :: rest ∧ fails s = true ∧ ∀ t ∈ (closeUntil fails l).1, fails t = false)
  | [] => by simp [closeUntil]
  | s :: ss => by
    obtain ⟨h1, h2⟩ := closeUntil_facts fails ss
    unfold closeUntil
    split
    · rename_i hs
      exact ⟨by simp, fun _ => ⟨s, ss, rfl, hs, by simp⟩⟩
    · rename_i hs
      refine ⟨?_, ?_⟩
      · intro h
        obtain ⟨g1, g2⟩ := h1 h
        simp only [g1, List.mem_cons, forall_eq_or_imp, true_and]
        exact ⟨by simpa using hs, g2⟩
      · intro h
        obtain ⟨t, rest, g1, g2, g3⟩ := h2 h
        refine ⟨t, rest, ?_, g2, ?_⟩
        · simp only [List.cons_append, List.cons.injEq, true_and]; exact g1
        · simp only [List.mem_cons, forall_eq_or_imp]; exact ⟨by simpa using hs, g3⟩

theorem factory_get_mem {f : Factory} {k : SKey} {s : SheetObj} (h : f.get k = some s) : s ∈ f.sheets := by
  unfold Factory.get at h
  cases e : dget f.cache k.1 with
  | none => rw [e] at h; cases h
  | some l =>
    rw [e] at h
    simp only [Factory.sheets, List.mem_flatMap, List.mem_map]
    exact ⟨_, mem_of_dget e, _, mem_of_dget h, rfl⟩

/-- C128: closing the factory raises exactly if the closing of one of its sheets does; if not, it is closed as it should. -/
theorem C128_raises (f : Factory) (fails : SheetObj → Bool) :
    ((f.closeOr fails).2 = true ↔ ∃ s ∈ f.sheets, fails s = true) ∧ ((f.closeOr fails).2 = false → (f.closeOr fails).1 = f.close) := by
  obtain ⟨h1, h2⟩ := closeUntil_facts fails f.sheets
  constructor
  · show (closeUntil fails f.sheets).2 = true ↔ _
    constructor
    · intro h
      obtain ⟨s, rest, e, hf, _⟩ := h2 h
      exact ⟨s, by rw [e]; simp, hf⟩
    · rintro ⟨s, hs, hf⟩
      cases h : (closeUntil fails f.sheets).2 with
      | true => rfl
      | false => rw [(h1 h).2 s hs] at hf; cases hf
  · intro h
    have h : (closeUntil fails f.sheets).2 = false := h
    have := (h1 h).1
    simp only [Factory.closeOr, h, this, Bool.false_eq_true, if_false]
    rfl

/-- C128: when closing the factory raises, all its sheets are still found under their ids; closed are some, up to one that cannot be
closed, and no others. Closing it again, when all can be closed, closes all of them. -/
theorem C128_again (f : Factory) (fails : SheetObj → Bool) (h : (f.closeOr fails).2 = true) :
    (∀ k, (f.closeOr fails).1.get k = f.get k) ∧
    (∃ done s rest, f.sheets = done ++ s :: rest ∧ fails s = true ∧ (f.closeOr fails).1.closed = done ++ f.closed) ∧
    (∀ k s, f.get k = some s → s ∈ (f.closeOr fails).1.close.closed) ∧ ∀ k, (f.closeOr fails).1.close.get k = none := by
  have h' : (closeUntil fails f.sheets).2 = true := h
  have hc : (f.closeOr fails).1.cache = f.cache := by simp only [Factory.closeOr, h', if_true]
  have hg : ∀ k, (f.closeOr fails).1.get k = f.get k := by intro k; simp only [Factory.get, hc]
  obtain ⟨s, rest, e, hf, _⟩ := (closeUntil_facts fails f.sheets).2 h'
  refine ⟨hg, ⟨_, s, rest, e, hf, rfl⟩, ?_, fun k => rfl⟩
  intro k s hs
  have := factory_get_mem (f := (f.closeOr fails).1) (by rw [hg]; exact hs)
  simp only [Factory.close, List.mem_append]
  exact .inl this

/-- C128: adding a sheet where all the sheets replaced can be closed is as it should, whichever others cannot be. -/
theorem C128_add_fine (f f' : Factory) (fails : SheetObj → Bool) (order : List SKey → List SKey) (s : SheetObj) (wbs : Ids Str) (shs : Ids ShId)
    (ks : List SKey) (hne : deriveKeys s wbs shs ≠ []) (ha : f.addKeysOr fails s (order (deriveKeys s wbs shs)) = (f', ks, false)) :
    f.add order s wbs shs = .ok f' := by
  obtain ⟨e1, e2, -⟩ := addKeysOr_eq fails s (order (deriveKeys s wbs shs)) f
  rw [ha] at e1 e2
  have e2 := e2 rfl
  simp only at e1 e2
  simp only [Factory.add, List.isEmpty_iff, hne, if_false]
  rw [e1, e2]

/-- C128: when adding a sheet raises, because one that it replaces cannot be closed, that one is still found and not closed; and (with `C46_lookup`
for histories with such failures) so are all the others that are not closed. -/
theorem C128_add (f f' : Factory) (log : SKey → SheetObj → Prop) (h : History f log) (fails : SheetObj → Bool)
    (order : List SKey → List SKey) (ho : IsOrder order) (s : SheetObj) (hs : s ∉ f.closed) (wbs : Ids Str) (shs : Ids ShId) (ks : List SKey)
    (ha : f.addKeysOr fails s (order (deriveKeys s wbs shs)) = (f', ks, true)) :
    (∃ k old, Registers s wbs shs k ∧ fails old = true ∧ old ≠ s ∧ f'.get k = some old ∧ old ∉ f'.closed) ∧
    (∀ k ∈ ks, Registers s wbs shs k ∧ f'.get k = some s) ∧
    (∀ k t, f.get k = some t → t ∉ f'.closed → f'.get k = some t) := by
  obtain ⟨e1, -, e3⟩ := addKeysOr_eq fails s (order (deriveKeys s wbs shs)) f
  have hh := C46_lookup _ _ (History.addRaises fails order s wbs shs f'.opened h ho hs ha)
  have hh : ∀ k t, f'.get k = some t ↔ ((log k t ∨ (t = s ∧ k ∈ ks)) ∧ t ∉ f'.closed) := hh
  rw [ha] at e1 e3
  obtain ⟨k, rest, old, e, hg, hne, hf⟩ := e3 rfl
  have hm : ∀ k, k ∈ order (deriveKeys s wbs shs) ↔ Registers s wbs shs k := fun k => by rw [ho, mem_deriveKeys]
  have hsn : s ∉ f'.closed := by
    simp only at e1
    rw [e1]
    intro hc
    rcases ((addKeys_facts s ks (history_ok h)).2.2.1 s).1 hc with hc | ⟨hc, _⟩
    · exact hs hc
    · exact hc rfl
  refine ⟨⟨k, old, (hm k).1 (by rw [e]; simp), hf, hne, hg, ((hh k old).1 hg).2⟩, ?_, ?_⟩
  · intro k' hk'
    exact ⟨(hm k').1 (by rw [e]; simp [hk']), (hh k' s).2 ⟨.inr ⟨rfl, hk'⟩, hsn⟩⟩
  · intro k' t ht hc
    exact (hh k' t).2 ⟨.inl ((C46_lookup f log h k' t).1 ht).1, hc⟩

/-- Two sheets of different workbooks. -/
private def one : SheetObj := ⟨1, "a".toList, [.num 0]⟩
private def two : SheetObj := ⟨2, "b".toList, [.num 0]⟩
private def both : Factory := ((Factory.new.put ("a".toList, .num 0) one).put ("b".toList, .num 0) two)

/-- C128 fails: when the second of two sheets cannot be closed, the first is closed and still served. -/
theorem C128_served_refuted : ∃ (f : Factory) (fails : SheetObj → Bool) (log : SKey → SheetObj → Prop) (k : SKey) (s : SheetObj),
    History f log ∧ (f.closeOr fails).2 = true ∧ s ∈ (f.closeOr fails).1.closed ∧
    ∀ order o base, ((f.closeOr fails).1.fetch order o (some k.1) k.2 base).2.toOption = some s := by
  have h1 : Factory.new.add id one .none (.many []) = .ok (Factory.new.put ("a".toList, .num 0) one) := rfl
  have h2 : (Factory.new.put ("a".toList, .num 0) one).add id two .none (.many []) = .ok both := rfl
  refine ⟨both, fun s => s = two, _, ("a".toList, .num 0), one,
    .add id two .none (.many []) (.add id one .none (.many []) .new (fun _ _ => Iff.rfl) (by decide +kernel) h1) (fun _ _ => Iff.rfl) (by decide +kernel) h2,
    by decide +kernel, by decide +kernel, ?_⟩
  intro order o base
  have hg : (both.closeOr (fun s => s = two)).1.get ("a".toList, .num 0) = some one := by decide +kernel
  simp only [Factory.fetch]
  cases base <;> simp only [Factory.cachedOr, hg] <;> rfl

/-! A case that meets the hypotheses: the second sheet replaces the first under an id, and the first cannot be closed. -/
example : (both.addKeysOr (fun s => s = one) two (id (deriveKeys two (.one "a".toList) (.many [])))).2 = ([("b".toList, .num 0)], true) := by
  decide +kernel
example : (both.addKeysOr (fun s => s = two) two (id (deriveKeys two (.one "a".toList) (.many [])))).2.2 = false := by decide +kernel
example : (both.closeOr (fun s => s = two)).2 = true := by decide +kernel

end Props
