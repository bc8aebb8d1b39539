import Verif.Spec.Assemblies
import Verif.Props.Components
/-
C108: assemblies of assemblies.
-/
namespace Props
open Py Model Spec Lemmas

private def accum (i o : List Str) : Except PyErr (List Str × List Str) → Except PyErr (List Str × List Str)
  | .error e => .error e
  | .ok (x, y) => .ok (i ++ x, o ++ y)

private theorem buildAll_acc (F : Nat) (E : RegexLib) (pmod : Option Nat) : ∀ (cs : List Comp) (σ : PsState) (i o : List Str),
    buildAll F E σ pmod i o cs = ((buildAll F E σ pmod [] [] cs).1, accum i o (buildAll F E σ pmod [] [] cs).2)
  | [], σ, i, o => by simp [buildAll, accum]
  | c :: cs, σ, i, o => by
    unfold buildAll
    rcases hb : c.build F E σ pmod with ⟨⟨σ1, c1⟩, r⟩
    cases r with
    | error e => rfl
    | ok u =>
      simp only
      rw [buildAll_acc F E pmod cs σ1 (i ++ c1.inp) (o ++ c1.out), buildAll_acc F E pmod cs σ1 ([] ++ c1.inp) ([] ++ c1.out)]
      simp only
      cases (buildAll F E σ1 pmod [] [] cs).2 with
      | error e => rfl
      | ok x => simp [accum]

private theorem buildAll_append (F : Nat) (E : RegexLib) (pmod : Option Nat) (b : List Comp) : ∀ (a : List Comp) (σ : PsState) (i o : List Str),
    buildAll F E σ pmod i o (a ++ b) = match buildAll F E σ pmod i o a with
      | ((σ1, a1), .error e) => ((σ1, a1 ++ b), .error e)
      | ((σ1, a1), .ok (i1, o1)) => match buildAll F E σ1 pmod i1 o1 b with
        | ((σ2, b2), r) => ((σ2, a1 ++ b2), r)
  | [], σ, i, o => by simp [buildAll]
  | c :: cs, σ, i, o => by
    rw [List.cons_append]
    have step : ∀ l, buildAll F E σ pmod i o (c :: l) = match c.build F E σ pmod with
        | ((σ1, c1), .error e) => ((σ1, c1 :: l), .error e)
        | ((σ1, c1), .ok _) =>
          match buildAll F E σ1 pmod (i ++ c1.inp) (o ++ c1.out) l with
          | ((σ2, cs2), r) => ((σ2, c1 :: cs2), r) := fun l => by
      simp only [buildAll]
      rcases c.build F E σ pmod with ⟨⟨σ1, c1⟩, r⟩
      cases r <;> rfl
    rw [step, step]
    rcases hb : c.build F E σ pmod with ⟨⟨σ1, c1⟩, r⟩
    cases r with
    | error e => rfl
    | ok u =>
      simp only
      rw [buildAll_append F E pmod b cs σ1]
      rcases buildAll F E σ1 pmod (i ++ c1.inp) (o ++ c1.out) cs with ⟨⟨σ2, cs2⟩, r⟩
      cases r with
      | error e => rfl
      | ok x => rfl

/-- The same but for order and repetitions. -/
private def Similar : Except PyErr (List Str × List Str) → Except PyErr (List Str × List Str) → Prop
  | .error e, .error e' => e = e'
  | .ok (i, o), .ok (i', o') => (∀ x, x ∈ i ↔ x ∈ i') ∧ ∀ x, x ∈ o ↔ x ∈ o'
  | _, _ => False

mutual
private theorem part_flat (F : Nat) (E : RegexLib) (pmod : Option Nat) : ∀ (p : Part) (σ : PsState),
    (buildAll F E σ pmod [] [] (leaves p)).1.1 = (p.build F E σ pmod).1.1 ∧
    (buildAll F E σ pmod [] [] (leaves p)).1.2 = leaves (p.build F E σ pmod).1.2 ∧
    Similar (buildAll F E σ pmod [] [] (leaves p)).2 (p.build F E σ pmod).2
  | .comp c, σ => by
    unfold leaves Part.build
    simp only [buildAll]
    rcases hb : c.build F E σ pmod with ⟨⟨σ1, c1⟩, r⟩
    cases r with
    | error e => simp [Similar]
    | ok u => simp [Similar]
  | .assembly ps, σ => by
    have h := parts_flat F E pmod ps σ [] []
    unfold leaves Part.build
    generalize buildParts F E σ pmod [] [] ps = g at h ⊢
    obtain ⟨⟨σ1, ps1⟩, r⟩ := g
    obtain ⟨h1, h2, h3⟩ := h
    cases r with
    | error e => exact ⟨h1, h2, h3⟩
    | ok x =>
      obtain ⟨i, o⟩ := x
      refine ⟨h1, h2, ?_⟩
      cases hr : (buildAll F E σ pmod [] [] (leavesOf ps)).2 with
      | error e => rw [hr] at h3; exact h3.elim
      | ok y =>
        rw [hr] at h3
        exact ⟨fun x => by rw [h3.1 x, (sortedSet_spec i).2], fun x => by rw [h3.2 x, (sortedSet_spec o).2]⟩
private theorem parts_flat (F : Nat) (E : RegexLib) (pmod : Option Nat) : ∀ (ps : List Part) (σ : PsState) (i o : List Str),
    (buildAll F E σ pmod i o (leavesOf ps)).1.1 = (buildParts F E σ pmod i o ps).1.1 ∧
    (buildAll F E σ pmod i o (leavesOf ps)).1.2 = leavesOf (buildParts F E σ pmod i o ps).1.2 ∧
    Similar (buildAll F E σ pmod i o (leavesOf ps)).2 (buildParts F E σ pmod i o ps).2
  | [], σ, i, o => by simp [buildAll, buildParts, leavesOf, Similar]
  | p :: ps, σ, i, o => by
    have h := part_flat F E pmod p σ
    unfold leavesOf buildParts
    rw [buildAll_append, buildAll_acc F E pmod (leaves p)]
    generalize p.build F E σ pmod = g at h ⊢
    generalize buildAll F E σ pmod [] [] (leaves p) = b at h ⊢
    obtain ⟨⟨σ1, p1⟩, r⟩ := g
    obtain ⟨⟨σ1', cs1⟩, r'⟩ := b
    obtain ⟨h1, h2, h3⟩ := h
    simp only at h1 h2 h3
    subst h1 h2
    cases r with
    | error e =>
      cases r' with
      | error e' => exact ⟨rfl, rfl, h3⟩
      | ok y => exact h3.elim
    | ok x =>
      cases r' with
      | error e' => exact h3.elim
      | ok y =>
        obtain ⟨xi, xo⟩ := x
        obtain ⟨yi, yo⟩ := y
        have ih := parts_flat F E pmod ps σ1' (i ++ xi) (o ++ xo)
        simp only [accum]
        rw [buildAll_acc F E pmod (leavesOf ps)] at ih ⊢
        generalize buildParts F E σ1' pmod (i ++ xi) (o ++ xo) ps = g at ih ⊢
        obtain ⟨⟨σ2, ps2⟩, r⟩ := g
        obtain ⟨i1, i2, i3⟩ := ih
        simp only at i1 i2 i3
        refine ⟨i1, by rw [i2], ?_⟩
        simp only
        cases hr : (buildAll F E σ1' pmod [] [] (leavesOf ps)).2 with
        | error e => rw [hr] at i3; exact i3
        | ok z =>
          rw [hr] at i3
          cases r with
          | error e => exact i3.elim
          | ok w =>
            refine ⟨fun x => ?_, fun x => ?_⟩
            · rw [← i3.1 x]
              simp [h3.1 x]
            · rw [← i3.2 x]
              simp [h3.2 x]
end

/-- C108. An assembly, of components and assemblies nested to any depth, builds or fails to build as the assembly of just its components would:
the steps made are the same, the components are left the same, and so are the inputs and outputs, or the exception. -/
theorem C108_flat (F : Nat) (E : RegexLib) (σ : PsState) (parts : List Part) (pmod : Option Nat) :
    ∃ parts', (Part.assembly parts).build F E σ pmod =
        (((assemblyBuild F E σ (leavesOf parts) pmod).1.1, .assembly parts'), (assemblyBuild F E σ (leavesOf parts) pmod).2) ∧
      leavesOf parts' = (assemblyBuild F E σ (leavesOf parts) pmod).1.2 := by
  have h := parts_flat F E pmod parts σ [] []
  unfold Part.build assemblyBuild
  generalize buildParts F E σ pmod [] [] parts = g at h ⊢
  generalize buildAll F E σ pmod [] [] (leavesOf parts) = b at h ⊢
  obtain ⟨⟨σ1, ps1⟩, r⟩ := g
  obtain ⟨⟨σ1', cs1⟩, r'⟩ := b
  obtain ⟨h1, h2, h3⟩ := h
  simp only at h1 h2 h3
  subst h1 h2
  refine ⟨ps1, ?_⟩
  cases r with
  | error e =>
    cases r' with
    | error e' => exact ⟨by rw [show e' = e from h3], rfl⟩
    | ok y => exact h3.elim
  | ok x =>
    cases r' with
    | error e' => exact h3.elim
    | ok y =>
      obtain ⟨xi, xo⟩ := x
      obtain ⟨yi, yo⟩ := y
      have e1 : sortedSet yi = sortedSet xi := sorted_unique (sortedSet_spec yi).1 (sortedSet_spec xi).1
        (fun x => by rw [(sortedSet_spec yi).2, (sortedSet_spec xi).2]; exact h3.1 x)
      have e2 : sortedSet yo = sortedSet xo := sorted_unique (sortedSet_spec yo).1 (sortedSet_spec xo).1
        (fun x => by rw [(sortedSet_spec yo).2, (sortedSet_spec xo).2]; exact h3.2 x)
      exact ⟨by simp only [e1, e2], rfl⟩

/-- C108. How components are grouped to assemblies, and in which order, makes no difference to inputs and outputs of the whole, nor to whether
it can be built, whatever was built before. -/
theorem C108_grouping (F : Nat) (E : RegexLib) (h : List PmodObj) (history history' : List (Comp × Option Nat)) (parts parts' : List Part)
    (pmod : Option Nat) (hu : Usable F h pmod) (hs : ∀ c ∈ leavesOf parts, ∀ a ∈ c.cfunc, SoundAct F a)
    (hh : ∀ b ∈ history ++ history', (∀ a ∈ b.1.cfunc, SoundAct F a) ∧ Usable F h b.2)
    (hp : ∀ c, c ∈ leavesOf parts ↔ c ∈ leavesOf parts') :
    ((Part.assembly parts).build F E (runBuilds F E ⟨h, [], []⟩ history) pmod).2.toOption =
      ((Part.assembly parts').build F E (runBuilds F E ⟨h, [], []⟩ history') pmod).2.toOption := by
  obtain ⟨p1, e1, -⟩ := C108_flat F E (runBuilds F E ⟨h, [], []⟩ history) parts pmod
  obtain ⟨p2, e2, -⟩ := C108_flat F E (runBuilds F E ⟨h, [], []⟩ history') parts' pmod
  rw [e1, e2]
  exact C60_any_order F E h history history' _ _ pmod hu hs hh hp

/-- Assemblies in assemblies. -/
def someParts : List Part := [.assembly [.comp compF2, .assembly []], .comp compF1]

example : ((Part.assembly someParts).build 9 Tests.toy ⟨[], [], []⟩ none).2 =
    .ok (["f1/A".toList, "f2/B".toList], ["f1/B".toList, "f2/C".toList]) ∧
    ∀ c, c ∈ leavesOf someParts ↔ c ∈ leavesOf [Part.comp compF1, .comp compF2] :=
  ⟨by rfl, fun c => by simp [someParts, leavesOf, leaves, or_comm]⟩
end Props
