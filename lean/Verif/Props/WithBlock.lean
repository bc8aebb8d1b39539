import Verif.Model.WithBlock
import Verif.Lemmas.LassoRun
import Verif.Props.LassoRun
import Verif.Props.CloseFails
/-
C149: leaving a `with` block of a factory closes all that was opened in it.
-/
namespace Props
open Py Model Spec Lemmas

section
variable {α : Type} (order : List SKey → List SKey) (o : Openers) (fails : SheetObj → Bool) (closeErr : PyErr) (f : Factory) (block : Run α)

/-- C149: what the block returns or raises comes out of it, unless a sheet that is in the factory at its end cannot be closed, whose exception
comes out then. -/
theorem C149_result :
    ((∀ s ∈ (block.exec order o f).1.cached, fails s = false) →
      (f.withBlock order o fails closeErr block).2.2.2 = (block.exec order o f).2.2) ∧
    ((∃ s ∈ (block.exec order o f).1.cached, fails s = true) → (f.withBlock order o fails closeErr block).2.2.2 = .error closeErr) := by
  have h := (C128_raises (block.exec order o f).1 fails).1
  constructor
  · intro hf
    have : ((block.exec order o f).1.closeOr fails).2 = false := by
      cases hc : ((block.exec order o f).1.closeOr fails).2 with
      | false => rfl
      | true =>
        obtain ⟨s, hs, hs'⟩ := h.1 hc
        rw [hf s hs] at hs'; cases hs'
    simp only [Factory.withBlock, this, Bool.false_eq_true, if_false]
  · intro hf
    simp only [Factory.withBlock, h.2 hf, if_true]

/-- C149 (partial: for backends that open no workbooks without a name, see `C149_nameless_refuted`). However a `with` block of a factory ends,
and whatever was asked from the factory in it, at its end all sheets opened or added in it are closed, and so are those that were in the
factory before; their workbooks are released, except where a sheet was replaced by another; nothing else is closed; and the factory is empty. -/
theorem C149_closed_partial (ho : IsOrder order) (hn : NamesBooks o) (log : SKey → SheetObj → Prop) (hf : History f log)
    (hc : ∀ s ∈ (block.exec order o f).1.cached, fails s = false) :
    let r := f.withBlock order o fails closeErr block
    (∀ k, r.1.get k = none) ∧
    (∀ e ∈ r.2.1, e.sheet ∈ r.1.closed ∧ (e.sheet ∈ r.2.2.1 ∨ ∃ e' ∈ r.2.1, e'.sheet ≠ e.sheet)) ∧
    (∀ k s, f.get k = some s → s ∈ r.1.closed ∧ (s ∈ r.2.2.1 ∨ ∃ e ∈ r.2.1, e.sheet ≠ s)) ∧
    ∀ t ∈ r.1.closed, t ∈ f.closed ∨ t ∈ f.cached ∨ ∃ e ∈ r.2.1, e.sheet = t := by
  have d := exec_did ho hn block (history_ok hf)
  have hno : ((block.exec order o f).1.closeOr fails).2 = false := by
    cases hx : ((block.exec order o f).1.closeOr fails).2 with
    | false => rfl
    | true =>
      obtain ⟨s, hs, hs'⟩ := (C128_raises (block.exec order o f).1 fails).1.1 hx
      rw [hc s hs] at hs'; cases hs'
  have e1 : (f.withBlock order o fails closeErr block).1 = (block.exec order o f).1.close := (C128_raises _ fails).2 hno
  have e2 : (f.withBlock order o fails closeErr block).2.2.1 = (block.exec order o f).1.cached :=
    ((closeUntil_facts fails _).1 hno).1
  have e3 : (f.withBlock order o fails closeErr block).2.1 = (block.exec order o f).2.1 := rfl
  simp only
  rw [e1, e2, e3]
  have hcl : ∀ t, t ∈ (block.exec order o f).1.close.closed ↔
      t ∈ (block.exec order o f).1.cached ∨ t ∈ (block.exec order o f).1.closed := by
    intro t; unfold Factory.close Factory.cached; simp only [List.mem_append]
  refine ⟨fun k => rfl, ?_, ?_, ?_⟩
  · intro e he
    rw [hcl]
    rcases d.evs e he with ⟨k, hk⟩ | ⟨h1, h2⟩
    · exact ⟨.inl (cached_of_get hk), .inl (cached_of_get hk)⟩
    · exact ⟨.inr h1, .inr h2⟩
  · intro k s hs
    rw [hcl]
    rcases d.kept k s hs with ⟨h1, -⟩ | ⟨h1, h2⟩
    · exact ⟨.inl (cached_of_get h1), .inl (cached_of_get h1)⟩
    · exact ⟨.inr h1, .inr h2⟩
  · intro t ht
    rcases (hcl t).1 ht with ht | ht
    · rcases d.cachedFrom t ht with h | h
      · exact .inr (.inl h)
      · exact .inr (.inr h)
    · exact d.closedFrom t ht

/-- C149: when a sheet cannot be closed at the end of the block, closing the factory once more, when all can be, closes all sheets opened or added
in the block. -/
theorem C149_again_partial (ho : IsOrder order) (hn : NamesBooks o) (log : SKey → SheetObj → Prop) (hf : History f log)
    (hc : ∃ s ∈ (block.exec order o f).1.cached, fails s = true) :
    let r := f.withBlock order o fails closeErr block
    (∀ e ∈ r.2.1, e.sheet ∈ r.1.close.closed) ∧ ∀ k, r.1.close.get k = none := by
  have d := exec_did ho hn block (history_ok hf)
  have hx := (C128_raises (block.exec order o f).1 fails).1.2 hc
  obtain ⟨-, ⟨done, s, rest, -, -, h2⟩, h3, h4⟩ := C128_again _ fails hx
  refine ⟨?_, h4⟩
  intro e he
  show e.sheet ∈ ((block.exec order o f).1.closeOr fails).1.close.closed
  rcases d.evs e he with ⟨k, hk⟩ | ⟨h, -⟩
  · exact h3 k _ hk
  · unfold Factory.close
    simp only [List.mem_append]
    right
    rw [h2]
    exact List.mem_append_right _ h

end

/-- C149 is false where a backend opens a workbook without a name: its sheet is not registered, and stays open. -/
theorem C149_nameless_refuted : ∃ (o : Openers) (s : SheetObj),
    Event.opened s ∈ (Factory.new.withBlock id o (fun _ => false) .valueError (.fetch none .none none .done)).2.1 ∧
    s ∉ (Factory.new.withBlock id o (fun _ => false) .valueError (.fetch none .none none .done)).1.closed :=
  ⟨⟨fun _ _ _ => .ok ⟨0, "active".toList, [.num 0]⟩, fun _ _ _ => .error .valueError⟩, ⟨0, "active".toList, [.num 0]⟩,
    by decide +kernel, by decide +kernel⟩

/-- A block that opens a sheet, then a sibling of it, and raises. -/
private def raising : Run Unit := .fetch (some "b.xls".toList) (.text "S".toList) none (fun r => match r with
  | .ok s => .fetch none (.text "T".toList) (some s) (fun _ => .done (.error .lookupError))
  | .error e => .done (.error e))

/-- The hypotheses of `C149_closed_partial` (for `freshOpeners`, see `Props/LassoRun`), and what comes of it. -/
example : (∀ s ∈ (raising.exec id freshOpeners Factory.new).1.cached, (fun _ => false) s = false) ∧
    (Factory.new.withBlock id freshOpeners (fun _ => false) .valueError raising).2.1.length = 2 ∧
    (Factory.new.withBlock id freshOpeners (fun _ => false) .valueError raising).1.closed.length = 6 ∧
    (match (Factory.new.withBlock id freshOpeners (fun _ => false) .valueError raising).2.2.2 with
      | .error e => decide (e = .lookupError) | .ok _ => false) = true := by decide +kernel

end Props
