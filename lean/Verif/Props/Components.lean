import Verif.Lemmas.Components
import Verif.Props.PstepPaths
/-
C60: building components and assemblies.
-/
set_option linter.unusedSimpArgs false
namespace Props
open Py Model Spec Lemmas

/-- Nothing made yet. -/
theorem tidy_nothing (D : Nat) (E : RegexLib) (h : List PmodObj) : Tidy D E ⟨h, [], []⟩ := by
  have hno : ∀ s k c, ¬ Edge ⟨h, [], []⟩ s k c := by
    rintro s k c ⟨o, h1, _⟩; simp at h1
  constructor
  · intro i j oi oj d h1; simp at h1
  · intro i oi d h1; simp at h1
  · intro i oi h1; simp at h1
  · intro s k c he; exact absurd he (hno s k c)
  · intro s k s' k' c he; exact absurd he (hno s k c)
  · intro i oi h1; simp at h1
  · intro s k c os he; exact absurd he (hno s k c)

/-- Building depends on what the component is called and does, only. -/
theorem build_name_cfunc (F : Nat) (E : RegexLib) (σ : PsState) (pmod : Option Nat) {c c' : Comp} (h1 : c'.name = c.name)
    (h2 : c'.cfunc = c.cfunc) : c'.build F E σ pmod = c.build F E σ pmod := by
  simp only [Comp.build, h1, h2]

/-- Building in any tidy state gives what it gives when nothing was made before. -/
theorem build_alone {F : Nat} {E : RegexLib} {h : List PmodObj} {σ : PsState} (hT : Tidy F E σ) (hx : Ext h σ.pmods)
    {pmod : Option Nat} (hu : Usable F h pmod) (c : Comp) (hs : ∀ a ∈ c.cfunc, SoundAct F a) :
    outcome (c.build F E σ pmod) = outcome (c.build F E ⟨h, [], []⟩ pmod) ∧
    Tidy F E (c.build F E σ pmod).1.1 ∧ Ext h (c.build F E σ pmod).1.1.pmods ∧
    (c.build F E σ pmod).1.2.name = c.name ∧ (c.build F E σ pmod).1.2.cfunc = c.cfunc := by
  obtain ⟨t, hd, hdep⟩ := hu
  have hw : ∀ x, t = some x → Within F x := fun x hx => (within_depth x).mono F (hdep x hx)
  have hnc : ∀ (acts : List Act) (σ : PsState) (c : Comp), (runActs F E σ c acts).1.2.name = c.name ∧
      (runActs F E σ c acts).1.2.cfunc = c.cfunc := by
    intro acts
    induction acts with
    | nil => intro σ c; exact ⟨rfl, rfl⟩
    | cons a acts ih =>
      intro σ c
      have h1 : (runAct F E σ c a).1.2.name = c.name ∧ (runAct F E σ c a).1.2.cfunc = c.cfunc := by
        cases a with
        | fixInp p => exact ⟨rfl, rfl⟩
        | fixOut p => exact ⟨rfl, rfl⟩
        | inp p ch =>
          simp only [runAct]
          split
          · exact ⟨rfl, rfl⟩
          · split <;> exact ⟨rfl, rfl⟩
        | out p ch =>
          simp only [runAct]
          split
          · exact ⟨rfl, rfl⟩
          · split <;> exact ⟨rfl, rfl⟩
      rw [runActs]
      generalize runAct F E σ c a = g at h1
      obtain ⟨⟨σ1, c1⟩, r⟩ := g
      cases r with
      | error e => exact h1
      | ok u => exact ⟨(ih σ1 c1).1.trans h1.1, (ih σ1 c1).2.trans h1.2⟩
  have hnc' : (c.build F E σ pmod).1.2.name = c.name ∧ (c.build F E σ pmod).1.2.cfunc = c.cfunc := by
    have := hnc c.cfunc σ { c with inp := [], out := [], pinp := none, pout := none, pmod := pmod }
    simp only [Comp.build]
    generalize runActs F E σ _ c.cfunc = g at this
    obtain ⟨⟨σ1, c1⟩, r⟩ := g
    cases r with
    | error e => exact this
    | ok u =>
      simp only
      split
      · exact this
      · split <;> exact this
  have h1 := build_spec (F := F) (D := F) (E := E) (Nat.le_refl F) hw hT (denOpt_ext hx hd) c hs
  have h2 := build_spec (F := F) (D := F) (E := E) (Nat.le_refl F) hw (tidy_nothing F E h) hd c hs
  rcases h1 with ⟨σ', c', e, a1, a2, a3, a4⟩ | ⟨σ', c', li, lo, a1, a2, a3, a4, a5, a6, a7, a8, a9, a10⟩
  · rcases h2 with ⟨σ2, c2, e2, b1, b2, b3, b4⟩ | ⟨σ2, c2, li2, lo2, b1, b2, b3, b4, _⟩
    · rw [a1] at hnc' ⊢
      rw [b1]
      exact ⟨rfl, a2, hx.trans a3, hnc'⟩
    · exact absurd b4 a4
  · rcases h2 with ⟨σ2, c2, e2, b1, b2, b3, b4⟩ | ⟨σ2, c2, li2, lo2, b1, b2, b3, b4, b5, b6, b7, b8, b9, b10⟩
    · exact absurd a4 b4
    · rw [a1] at hnc' ⊢
      rw [b1]
      refine ⟨?_, a2, hx.trans a3, hnc'⟩
      simp only [outcome, a7, a8, b7, b8, askedPaths_unique a9 b9, askedPaths_unique a10 b10]

theorem builds_tidy {F : Nat} {E : RegexLib} {h : List PmodObj} (bs : List (Comp × Option Nat)) : ∀ {σ : PsState},
    Tidy F E σ → Ext h σ.pmods → (∀ b ∈ bs, (∀ a ∈ b.1.cfunc, SoundAct F a) ∧ Usable F h b.2) →
    Tidy F E (runBuilds F E σ bs) ∧ Ext h (runBuilds F E σ bs).pmods := by
  induction bs with
  | nil => intro σ hT hx _; exact ⟨hT, hx⟩
  | cons b bs ih =>
    intro σ hT hx hb
    obtain ⟨_, h2, h3, _⟩ := build_alone hT hx (hb b (by simp)).2 b.1 (hb b (by simp)).1
    exact ih h2 h3 (fun b' hb' => hb b' (by simp [hb']))

/-- C60. Whatever components were built before, with whatever mappings, a component builds or fails to
build as if it was the first, and its inputs and outputs are the same. -/
theorem C60_history_does_not_matter (F : Nat) (E : RegexLib) (h : List PmodObj) (history : List (Comp × Option Nat))
    (c : Comp) (pmod : Option Nat) (hu : Usable F h pmod) (hs : ∀ a ∈ c.cfunc, SoundAct F a)
    (hh : ∀ b ∈ history, (∀ a ∈ b.1.cfunc, SoundAct F a) ∧ Usable F h b.2) :
    outcome (c.build F E (runBuilds F E ⟨h, [], []⟩ history) pmod) = outcome (c.build F E ⟨h, [], []⟩ pmod) := by
  obtain ⟨h1, h2⟩ := builds_tidy history (tidy_nothing F E h) (Ext.refl h) hh
  exact (build_alone h1 h2 hu c hs).1

/-- C60. Build a component, build any others, and build it again, as it was left by the first build, with
the same mappings: it gives the same inputs and outputs. -/
theorem C60_rebuilding_repeats (F : Nat) (E : RegexLib) (h : List PmodObj) (before between : List (Comp × Option Nat))
    (c c1 : Comp) (pmod : Option Nat) (σ1 : PsState) (r : Except PyErr Unit)
    (hu : Usable F h pmod) (hs : ∀ a ∈ c.cfunc, SoundAct F a)
    (hh : ∀ b ∈ before ++ between, (∀ a ∈ b.1.cfunc, SoundAct F a) ∧ Usable F h b.2)
    (h1 : c.build F E (runBuilds F E ⟨h, [], []⟩ before) pmod = ((σ1, c1), r)) :
    outcome (c1.build F E (runBuilds F E σ1 between) pmod) = outcome ((σ1, c1), r) := by
  obtain ⟨a1, a2⟩ := builds_tidy before (tidy_nothing F E h) (Ext.refl h) (fun b hb => hh b (by simp [hb]))
  obtain ⟨b1, b2, b3, b4, b5⟩ := build_alone a1 a2 hu c hs
  rw [h1] at b1 b2 b3 b4 b5
  obtain ⟨d1, d2⟩ := builds_tidy between b2 b3 (fun b hb => hh b (by simp [hb]))
  rw [build_name_cfunc F E _ pmod b4 b5, (build_alone d1 d2 hu c hs).1, b1]

/-! ### What the inputs are -/

private theorem askable_none {E : RegexLib} {name : Str} {asks : List (Option Str × List Str)}
    (h : ∀ a ∈ asks, ReadNames a.2) : Askable E none name asks := by
  cases asks with
  | nil => trivial
  | cons a rest =>
    obtain ⟨p, ch⟩ := a
    refine ⟨none, none, rfl, fun q hq => ⟨?_, along_none E q⟩⟩
    rcases List.mem_cons.1 hq with rfl | hq
    · exact h _ (List.mem_cons_self ..)
    · obtain ⟨b, hb, rfl⟩ := List.mem_map.1 hq
      exact h b (by simp [hb])

/-- Where the paths of a component start: the path its step was first asked for with, if that is not empty, else
the name of the component. -/
def rootName (name : Str) : Option Str → Str
  | none => name
  | some [] => name
  | some (ch :: p) => ch :: p

theorem rootName_eq (name : Str) (p : Option Str) : rootName name p = pathOrName p name := by
  cases p with
  | none => rfl
  | some p => cases p <;> rfl

/-- The paths that come from uses of a step without mappings: none if it is not used; else the maximal chains
read from it. -/
def PlainPaths (name : Str) (asks : List (Option Str × List Str)) (l : List Str) : Prop :=
  match asks with
  | [] => l = []
  | (p, _) :: _ => StrictlySorted l ∧ ∀ x, x ∈ l ↔ ∃ q, Maximal (asks.map Prod.snd) q ∧
      x = pathText (rootName name p :: q)

private theorem plainPaths_of {E : RegexLib} {name : Str} {asks : List (Option Str × List Str)} {l : List Str}
    (hn : Ordinary name) (ho : ∀ a ∈ asks, (∀ p, a.1 = some p → p = "".toList ∨ Ordinary p) ∧ ∀ k ∈ a.2, Ordinary k)
    (h : AskedPaths E none name asks l) : PlainPaths name asks l := by
  cases asks with
  | nil => exact h
  | cons a rest =>
    obtain ⟨p, ch⟩ := a
    obtain ⟨t', a, h1, _, h3⟩ := h
    cases h1
    have hp : Ordinary (pathOrName p name) := by
      unfold pathOrName
      cases p with
      | none => exact hn
      | some p =>
        simp only
        split
        · exact hn
        · rename_i hne
          rcases (ho (some p, ch) (by simp)).1 p rfl with e | e
          · exact absurd e hne
          · exact e
    obtain ⟨s1, s2⟩ := h3 hp.1
    refine ⟨s1, fun x => ?_⟩
    have key : ∀ q, Maximal (ch :: rest.map Prod.snd) q → joinPaths (pathOrName p name :: q) = pathText (pathOrName p name :: q) := by
      intro q hq
      rw [joinPaths_eq_text]
      refine join_ordinary (.inr hp) (fun x hx => ?_)
      rcases List.mem_cons.1 hq.1 with rfl | hq
      · cases hx
      · rcases List.mem_cons.1 hq with rfl | hq
        · exact (ho (p, q) (by simp)).2 x hx
        · obtain ⟨b, hb, rfl⟩ := List.mem_map.1 hq
          exact (ho b (by simp [hb])).2 x hx
    rw [s2 x, rootName_eq]
    constructor
    · rintro ⟨q, as, u, hmax, hal, rfl⟩
      exact ⟨q, hmax, by rw [namesFor_none hal]; exact key q hmax⟩
    · rintro ⟨q, hmax, rfl⟩
      obtain ⟨as, u, hal⟩ := along_none E q
      exact ⟨q, as, u, hmax, hal, by rw [namesFor_none hal]; exact (key q hmax).symm⟩

/-- C60. A component built without mappings, whatever was built before: its inputs are the fixed ones, in
the order they were added, and then the maximal chains read from its input step, sorted and without repetition;
likewise the outputs. Nothing is raised. -/
theorem C60_inputs_are_what_is_read (F : Nat) (E : RegexLib) (h : List PmodObj) (history : List (Comp × Option Nat))
    (c : Comp) (hs : ∀ a ∈ c.cfunc, SoundAct F a)
    (hh : ∀ b ∈ history, (∀ a ∈ b.1.cfunc, SoundAct F a) ∧ Usable F h b.2)
    (hname : Ordinary c.name)
    (hasks : ∀ a ∈ inpAsks c.cfunc ++ outAsks c.cfunc,
      (∀ p, a.1 = some p → p = "".toList ∨ Ordinary p) ∧ ∀ k ∈ a.2, StepName k ∧ Ordinary k) :
    ∃ li lo, outcome (c.build F E (runBuilds F E ⟨h, [], []⟩ history) none) =
        some (fixedInp c.cfunc ++ li, fixedOut c.cfunc ++ lo) ∧
      PlainPaths c.name (inpAsks c.cfunc) li ∧ PlainPaths c.name (outAsks c.cfunc) lo := by
  obtain ⟨h1, h2⟩ := builds_tidy history (tidy_nothing F E h) (Ext.refl h) hh
  have ha : ∀ a ∈ inpAsks c.cfunc ++ outAsks c.cfunc, ReadNames a.2 := fun a ha k hk =>
    ⟨((hasks a ha).2 k hk).1, ((hasks a ha).2 k hk).2.1⟩
  rcases build_spec (F := F) (D := F) (E := E) (Nat.le_refl F) (t := none) (fun x hx => by cases hx) h1
    (pmod := none) trivial c hs with ⟨σ', c', e, a1, a2, a3, a4⟩ | ⟨σ', c', li, lo, a1, a2, a3, a4, a5, a6, a7, a8, a9, a10⟩
  · exact absurd ⟨askable_none (fun a h => ha a (by simp [h])), askable_none (fun a h => ha a (by simp [h]))⟩ a4
  · refine ⟨li, lo, by rw [a1]; simp only [outcome, a7, a8], plainPaths_of hname ?_ a9, plainPaths_of hname ?_ a10⟩
    · intro a h; exact ⟨(hasks a (by simp [h])).1, fun k hk => ((hasks a (by simp [h])).2 k hk).2⟩
    · intro a h; exact ⟨(hasks a (by simp [h])).1, fun k hk => ((hasks a (by simp [h])).2 k hk).2⟩

/-- The paths that come from uses of a step, mapped by the hierarchy. -/
def MappedPaths (E : RegexLib) (pm : Pmod) (name : Str) (asks : List (Option Str × List Str)) (l : List Str) : Prop :=
  match asks with
  | [] => l = []
  | (p, _) :: _ => StrictlySorted l ∧ ∀ x, x ∈ l ↔ ∃ q, Maximal (asks.map Prod.snd) q ∧
      pm.mapPath E (pathText (rootName name p :: q)) = .ok x

/-- The aliases in force along what is read are plain and relative; that of the first name may also start from the root. -/
def PlainAliases (E : RegexLib) (pm : Pmod) (name : Str) (asks : List (Option Str × List Str)) : Prop :=
  match asks with
  | [] => True
  | (p, _) :: _ => ∀ q ∈ [] :: asks.map Prod.snd, ∀ a as, AliasesAlong E (some pm) (rootName name p :: q) (a :: as) →
      (∀ x, a = some x → RootAlias x) ∧ ∀ x, some x ∈ as → RelativeAlias x

private theorem nameFor_rootAlias {k : Str} {a : Option Str} (hk : Ordinary k) (ha : ∀ x, a = some x → RootAlias x) :
    nameFor k a ≠ [] := by
  cases a with
  | none => exact hk.1
  | some a =>
    have hgen : ∀ xs : List Str, (∀ x ∈ xs, Plain x) → nameFor k (some (pathText xs)) =
        if pathText xs = "".toList then k else pathText xs := by
      intro xs hx
      simp only [nameFor, unescapePart_plain (tilde_not_mem_pathText hx)]
    rcases ha a rfl with ⟨n, ns, rfl, _, hx⟩ | ⟨n, ns, rfl, hx⟩
    · rw [hgen _ (fun x h => (hx x h).1)]
      split
      · exact hk.1
      · assumption
    · rw [hgen _ (fun x h => by
        rcases List.mem_cons.1 h with rfl | h
        · exact ⟨by decide, by decide⟩
        · exact (hx x h).1)]
      split
      · exact hk.1
      · assumption

private theorem mappedPaths_of {E : RegexLib} {pm : Pmod} {name : Str} {asks : List (Option Str × List Str)} {l : List Str}
    (hpm : pm.alias = none) (hn : Plain name ∧ Ordinary name)
    (ho : ∀ a ∈ asks, (∀ p, a.1 = some p → p = "".toList ∨ Plain p ∧ Ordinary p) ∧ ∀ k ∈ a.2, Plain k ∧ Ordinary k)
    (hal : PlainAliases E pm name asks) (hask : Askable E (some pm) name asks)
    (h : AskedPaths E (some pm) name asks l) : MappedPaths E pm name asks l := by
  cases asks with
  | nil => exact h
  | cons a rest =>
    obtain ⟨p, ch⟩ := a
    obtain ⟨t', a, h1, _, h3⟩ := h
    obtain ⟨t'', a', h1', hall⟩ := hask
    rw [h1] at h1'; cases h1'
    have hp : Plain (pathOrName p name) ∧ Ordinary (pathOrName p name) := by
      unfold pathOrName
      cases p with
      | none => exact hn
      | some p =>
        simp only
        split
        · exact hn
        · rename_i hne
          rcases (ho (some p, ch) (by simp)).1 p rfl with e | e
          · exact absurd e hne
          · exact e
    simp only [PlainAliases, rootName_eq] at hal
    have hal' : ∀ q, q ∈ [] :: ch :: rest.map Prod.snd → ∀ as u, Along E t' q as u →
        (∀ x, a = some x → RootAlias x) ∧ ∀ x, some x ∈ as → RelativeAlias x := by
      intro q hq as u hq2
      exact hal q hq a as (along_iff.2 ⟨u, .cons (some pm) t' _ a q as u h1 hq2⟩)
    obtain ⟨s1, s2⟩ := h3 (nameFor_rootAlias hp.2 (hal' [] (by simp) [] t' (.nil t')).1)
    refine ⟨s1, fun x => ?_⟩
    have key : ∀ q, Maximal (ch :: rest.map Prod.snd) q → ∀ as u, Along E t' q as u →
        pm.mapPath E (pathText (pathOrName p name :: q)) = .ok (joinPaths (nameFor (pathOrName p name) a :: namesFor q as)) := by
      intro q hq as u hq2
      obtain ⟨q1, q2⟩ := hal' q hq.1 as u hq2
      refine mapped_text_at (.inr hp) hpm h1 hq2 q1 q2 (fun k hk => ?_)
      rcases List.mem_cons.1 hq.1 with rfl | hq
      · cases hk
      · rcases List.mem_cons.1 hq with rfl | hq
        · exact (ho (p, q) (by simp)).2 k hk
        · obtain ⟨b, hb, rfl⟩ := List.mem_map.1 hq
          exact (ho b (by simp [hb])).2 k hk
    rw [s2 x, rootName_eq]
    constructor
    · rintro ⟨q, as, u, hmax, hal, rfl⟩
      exact ⟨q, hmax, key q hmax as u hal⟩
    · rintro ⟨q, hmax, hx⟩
      obtain ⟨as, u, hal⟩ : ∃ as u, Along E t' q as u := by
        rcases List.mem_cons.1 hmax.1 with rfl | hq
        · exact ⟨[], t', .nil t'⟩
        · exact (hall q hq).2
      rw [key q hmax as u hal] at hx
      injection hx with hx
      exact ⟨q, as, u, hmax, hal, hx.symm⟩

/-- C60. A component built with mappings (that have no alias of their own), whatever was built before: if nothing
is raised, its inputs are the fixed ones, as they are, and then the maximal chains read from its input step, mapped
as paths by the hierarchy, sorted and without repetition; likewise the outputs. The names asked for are to be plain, as are
the aliases in force on them. -/
theorem C60_mapped_inputs (F : Nat) (E : RegexLib) (h : List PmodObj) (history : List (Comp × Option Nat))
    (c : Comp) (r : Nat) (pm : Pmod) (i o : List Str) (hden : Den h r pm) (hdepth : depth pm ≤ F) (hpm : pm.alias = none)
    (hs : ∀ a ∈ c.cfunc, SoundAct F a)
    (hh : ∀ b ∈ history, (∀ a ∈ b.1.cfunc, SoundAct F a) ∧ Usable F h b.2)
    (hname : Plain c.name ∧ Ordinary c.name)
    (hasks : ∀ a ∈ inpAsks c.cfunc ++ outAsks c.cfunc,
      (∀ p, a.1 = some p → p = "".toList ∨ Plain p ∧ Ordinary p) ∧ ∀ k ∈ a.2, Plain k ∧ Ordinary k)
    (hai : PlainAliases E pm c.name (inpAsks c.cfunc)) (hao : PlainAliases E pm c.name (outAsks c.cfunc))
    (hb : outcome (c.build F E (runBuilds F E ⟨h, [], []⟩ history) (some r)) = some (i, o)) :
    ∃ li lo, i = fixedInp c.cfunc ++ li ∧ o = fixedOut c.cfunc ++ lo ∧
      MappedPaths E pm c.name (inpAsks c.cfunc) li ∧ MappedPaths E pm c.name (outAsks c.cfunc) lo := by
  obtain ⟨h1, h2⟩ := builds_tidy history (tidy_nothing F E h) (Ext.refl h) hh
  have hw : ∀ x, some pm = some x → Within F x := by
    intro x hx; injection hx with hx; subst hx; exact (within_depth pm).mono F hdepth
  rcases build_spec (F := F) (D := F) (E := E) (Nat.le_refl F) (t := some pm) hw h1
    (pmod := some r) (denOpt_ext (r := some r) (t := some pm) h2 hden) c hs with
      ⟨σ', c', e, a1, a2, a3, a4⟩ | ⟨σ', c', li, lo, a1, a2, a3, a4, a5, a6, a7, a8, a9, a10⟩
  · rw [a1] at hb; cases hb
  · rw [a1] at hb
    simp only [outcome, a7, a8, Option.some.injEq, Prod.mk.injEq] at hb
    refine ⟨li, lo, hb.1.symm, hb.2.symm, mappedPaths_of hpm hname ?_ hai a4.1 a9, mappedPaths_of hpm hname ?_ hao a4.2 a10⟩
    · intro a h; exact hasks a (by simp [h])
    · intro a h; exact hasks a (by simp [h])

/-! ### Assemblies -/

/-- The components as they are after building: as if each was built in turn. -/
theorem buildAll_parts (F : Nat) (E : RegexLib) (pmod : Option Nat) (cs : List Comp) : ∀ (σ σ' : PsState) (inp out i o : List Str)
    (cs' : List Comp), buildAll F E σ pmod inp out cs = ((σ', cs'), .ok (i, o)) →
    (∀ x, x ∈ i ↔ x ∈ inp ∨ ∃ c ∈ cs', x ∈ c.inp) ∧ (∀ x, x ∈ o ↔ x ∈ out ∨ ∃ c ∈ cs', x ∈ c.out) ∧
    cs'.length = cs.length := by
  induction cs with
  | nil =>
    intro σ σ' inp out i o cs' h
    simp only [buildAll] at h
    cases h
    simp
  | cons c cs ih =>
    intro σ σ' inp out i o cs' h
    rw [buildAll] at h
    cases hb : c.build F E σ pmod with
    | mk s r =>
      obtain ⟨σ1, c1⟩ := s
      rw [hb] at h
      cases r with
      | error e => cases h
      | ok u =>
        simp only at h
        cases hall : buildAll F E σ1 pmod (inp ++ c1.inp) (out ++ c1.out) cs with
        | mk s2 r2 =>
          obtain ⟨σ2, cs2⟩ := s2
          rw [hall] at h
          cases h
          obtain ⟨k1, k2, k3⟩ := ih _ _ _ _ _ _ _ hall
          refine ⟨fun x => ?_, fun x => ?_, by simp [k3]⟩
          · rw [k1 x]; simp [or_assoc]
          · rw [k2 x]; simp [or_assoc]

/-- C60. When an assembly is built, its inputs are the inputs of its components as they are then, sorted
and without repetition, and likewise the outputs. -/
theorem C60_assembly_union (F : Nat) (E : RegexLib) (σ σ' : PsState) (comps comps' : List Comp) (pmod : Option Nat)
    (i o : List Str) (h : assemblyBuild F E σ comps pmod = ((σ', comps'), .ok (i, o))) :
    comps'.length = comps.length ∧ StrictlySorted i ∧ StrictlySorted o ∧
    (∀ x, x ∈ i ↔ ∃ c ∈ comps', x ∈ c.inp) ∧ (∀ x, x ∈ o ↔ ∃ c ∈ comps', x ∈ c.out) := by
  unfold assemblyBuild at h
  cases hall : buildAll F E σ pmod [] [] comps with
  | mk s r =>
    obtain ⟨σ1, cs⟩ := s
    rw [hall] at h
    cases r with
    | error e => cases h
    | ok io =>
      obtain ⟨i0, o0⟩ := io
      cases h
      obtain ⟨k1, k2, k3⟩ := buildAll_parts F E pmod comps _ _ _ _ _ _ _ hall
      obtain ⟨s1, s2⟩ := sortedSet_spec i0
      obtain ⟨t1, t2⟩ := sortedSet_spec o0
      refine ⟨k3, s1, t1, fun x => ?_, fun x => ?_⟩
      · rw [s2 x, k1 x]; simp
      · rw [t2 x, k2 x]; simp

/-- What a component gives when built alone. -/
private def alone (F : Nat) (E : RegexLib) (h : List PmodObj) (pmod : Option Nat) (c : Comp) : Option (List Str × List Str) :=
  outcome (c.build F E ⟨h, [], []⟩ pmod)

private theorem buildAll_alone {F : Nat} {E : RegexLib} {h : List PmodObj} {pmod : Option Nat} (hu : Usable F h pmod)
    (cs : List Comp) : ∀ {σ : PsState} (inp out : List Str), Tidy F E σ → Ext h σ.pmods →
    (∀ c ∈ cs, ∀ a ∈ c.cfunc, SoundAct F a) →
    ((∀ c ∈ cs, (alone F E h pmod c).isSome) → ∃ s i o, buildAll F E σ pmod inp out cs = (s, .ok (i, o)) ∧
      (∀ x, x ∈ i ↔ x ∈ inp ∨ ∃ c ∈ cs, ∃ ci co, alone F E h pmod c = some (ci, co) ∧ x ∈ ci) ∧
      (∀ x, x ∈ o ↔ x ∈ out ∨ ∃ c ∈ cs, ∃ ci co, alone F E h pmod c = some (ci, co) ∧ x ∈ co)) ∧
    ((∃ c ∈ cs, alone F E h pmod c = none) → ∃ s e, buildAll F E σ pmod inp out cs = (s, .error e)) := by
  induction cs with
  | nil => intro σ inp out _ _ _; exact ⟨fun _ => ⟨_, _, _, rfl, by simp, by simp⟩, fun ⟨c, hc, _⟩ => by cases hc⟩
  | cons c cs ih =>
    intro σ inp out hT hx hs
    obtain ⟨b1, b2, b3, _⟩ := build_alone hT hx hu c (hs c (by simp))
    change _ = alone F E h pmod c at b1
    simp only [buildAll]
    generalize c.build F E σ pmod = g at b1 b2 b3
    obtain ⟨⟨σ1, c1⟩, r⟩ := g
    cases r with
    | error e =>
      have hnone : alone F E h pmod c = none := b1.symm
      refine ⟨fun hall => ?_, fun _ => ⟨_, e, rfl⟩⟩
      have := hall c (by simp)
      rw [hnone] at this; cases this
    | ok u =>
      have hsome : alone F E h pmod c = some (c1.inp, c1.out) := b1.symm
      obtain ⟨i1, i2⟩ := ih (inp ++ c1.inp) (out ++ c1.out) b2 b3 (fun d hd => hs d (by simp [hd]))
      simp only
      constructor
      · intro hall
        obtain ⟨s, i, o, j1, j2, j3⟩ := i1 (fun d hd => hall d (by simp [hd]))
        obtain ⟨σ2, cs2⟩ := s
        refine ⟨_, i, o, by rw [j1], fun x => ?_, fun x => ?_⟩
        · rw [j2 x]
          simp only [List.mem_append, List.mem_cons, or_assoc]
          constructor
          · rintro (hm | hm | ⟨d, hd, hm⟩)
            · exact .inl hm
            · exact .inr ⟨c, .inl rfl, _, _, hsome, hm⟩
            · exact .inr ⟨d, .inr hd, hm⟩
          · rintro (hm | ⟨d, rfl | hd, ci, co, hd2, hm⟩)
            · exact .inl hm
            · rw [hsome] at hd2; cases hd2; exact .inr (.inl hm)
            · exact .inr (.inr ⟨d, hd, ci, co, hd2, hm⟩)
        · rw [j3 x]
          simp only [List.mem_append, List.mem_cons, or_assoc]
          constructor
          · rintro (hm | hm | ⟨d, hd, hm⟩)
            · exact .inl hm
            · exact .inr ⟨c, .inl rfl, _, _, hsome, hm⟩
            · exact .inr ⟨d, .inr hd, hm⟩
          · rintro (hm | ⟨d, rfl | hd, ci, co, hd2, hm⟩)
            · exact .inl hm
            · rw [hsome] at hd2; cases hd2; exact .inr (.inl hm)
            · exact .inr (.inr ⟨d, hd, ci, co, hd2, hm⟩)
      · rintro ⟨d, hd, hd2⟩
        rcases List.mem_cons.1 hd with rfl | hd
        · rw [hsome] at hd2; cases hd2
        · obtain ⟨s, e, j⟩ := i2 ⟨d, hd, hd2⟩
          obtain ⟨σ2, cs2⟩ := s
          exact ⟨_, e, by rw [j]⟩

/-- C60. An assembly can be built if and only if each of its components can be built on its own; its inputs
are then the inputs of its components, each built on its own, sorted and without repetition, and likewise the outputs. -/
theorem C60_assembly_of_parts (F : Nat) (E : RegexLib) (h : List PmodObj) (history : List (Comp × Option Nat))
    (comps : List Comp) (pmod : Option Nat) (hu : Usable F h pmod) (hs : ∀ c ∈ comps, ∀ a ∈ c.cfunc, SoundAct F a)
    (hh : ∀ b ∈ history, (∀ a ∈ b.1.cfunc, SoundAct F a) ∧ Usable F h b.2) :
    ((∃ s e, assemblyBuild F E (runBuilds F E ⟨h, [], []⟩ history) comps pmod = (s, .error e)) ↔
      ∃ c ∈ comps, outcome (c.build F E ⟨h, [], []⟩ pmod) = none) ∧
    ∀ s i o, assemblyBuild F E (runBuilds F E ⟨h, [], []⟩ history) comps pmod = (s, .ok (i, o)) →
      StrictlySorted i ∧ StrictlySorted o ∧
      (∀ x, x ∈ i ↔ ∃ c ∈ comps, ∃ ci co, outcome (c.build F E ⟨h, [], []⟩ pmod) = some (ci, co) ∧ x ∈ ci) ∧
      (∀ x, x ∈ o ↔ ∃ c ∈ comps, ∃ ci co, outcome (c.build F E ⟨h, [], []⟩ pmod) = some (ci, co) ∧ x ∈ co) := by
  obtain ⟨h1, h2⟩ := builds_tidy history (tidy_nothing F E h) (Ext.refl h) hh
  obtain ⟨k1, k2⟩ := buildAll_alone hu comps (σ := runBuilds F E ⟨h, [], []⟩ history) [] [] h1 h2 hs
  unfold assemblyBuild
  by_cases hall : ∀ c ∈ comps, (alone F E h pmod c).isSome
  · obtain ⟨s, i, o, j1, j2, j3⟩ := k1 hall
    rw [j1]
    refine ⟨⟨fun ⟨s, e, he⟩ => (by cases he), fun ⟨c, hc, hn⟩ => ?_⟩, fun s' i' o' he => ?_⟩
    · have := hall c hc
      rw [show alone F E h pmod c = none from hn] at this; cases this
    · cases he
      obtain ⟨s1, s2⟩ := sortedSet_spec i
      obtain ⟨t1, t2⟩ := sortedSet_spec o
      refine ⟨s1, t1, fun x => ?_, fun x => ?_⟩
      · rw [s2 x, j2 x]; simp only [List.not_mem_nil, false_or]; rfl
      · rw [t2 x, j3 x]; simp only [List.not_mem_nil, false_or]; rfl
  · have : ∃ c ∈ comps, alone F E h pmod c = none := by
      apply Classical.byContradiction
      intro hno
      apply hall
      intro c hc
      cases ha : alone F E h pmod c with
      | none => exact absurd ⟨c, hc, ha⟩ hno
      | some x => rfl
    obtain ⟨s, e, j⟩ := k2 this
    rw [j]
    exact ⟨⟨fun _ => this, fun _ => ⟨_, e, rfl⟩⟩, fun s' i' o' he => by cases he⟩

/-- C60. The order of the components, and their repetition, does not matter: assemblies of the same components, in any
order, after anything else was built, both fail to build or both have the same inputs and outputs. -/
theorem C60_any_order (F : Nat) (E : RegexLib) (h : List PmodObj) (history history' : List (Comp × Option Nat))
    (comps comps' : List Comp) (pmod : Option Nat) (hu : Usable F h pmod) (hs : ∀ c ∈ comps, ∀ a ∈ c.cfunc, SoundAct F a)
    (hh : ∀ b ∈ history ++ history', (∀ a ∈ b.1.cfunc, SoundAct F a) ∧ Usable F h b.2)
    (hp : ∀ c, c ∈ comps ↔ c ∈ comps') :
    (assemblyBuild F E (runBuilds F E ⟨h, [], []⟩ history) comps pmod).2.toOption =
      (assemblyBuild F E (runBuilds F E ⟨h, [], []⟩ history') comps' pmod).2.toOption := by
  obtain ⟨a1, a2⟩ := C60_assembly_of_parts F E h history comps pmod hu hs (fun b hb => hh b (by simp [hb]))
  obtain ⟨b1, b2⟩ := C60_assembly_of_parts F E h history' comps' pmod hu (fun c hc => hs c ((hp c).2 hc))
    (fun b hb => hh b (by simp [hb]))
  have hex : ∀ P : Comp → Prop, (∃ c ∈ comps, P c) ↔ ∃ c ∈ comps', P c := fun P =>
    ⟨fun ⟨c, h1, h2⟩ => ⟨c, (hp c).1 h1, h2⟩, fun ⟨c, h1, h2⟩ => ⟨c, (hp c).2 h1, h2⟩⟩
  rw [hex] at a1
  rw [← b1] at a1
  generalize assemblyBuild F E (runBuilds F E ⟨h, [], []⟩ history) comps pmod = g at a1 a2
  generalize assemblyBuild F E (runBuilds F E ⟨h, [], []⟩ history') comps' pmod = g' at a1 b2
  obtain ⟨s, r⟩ := g
  obtain ⟨s', r'⟩ := g'
  cases r with
  | error e =>
    obtain ⟨s2, e2, he⟩ := a1.1 ⟨s, e, rfl⟩
    cases he
    rfl
  | ok io =>
    cases r' with
    | error e =>
      obtain ⟨s2, e2, he⟩ := a1.2 ⟨s', e, rfl⟩
      cases he
    | ok io' =>
      obtain ⟨i, o⟩ := io
      obtain ⟨i', o'⟩ := io'
      obtain ⟨s1, s2, m1, m2⟩ := a2 s i o rfl
      obtain ⟨t1, t2, n1, n2⟩ := b2 s' i' o' rfl
      have e1 : i = i' := sorted_unique s1 t1 (fun x => by rw [m1, n1, hex])
      have e2 : o = o' := sorted_unique s2 t2 (fun x => by rw [m2, n2, hex])
      rw [e1, e2]

/-! ### The examples of the documentation -/

/-- A component as it is before it is built. -/
def newComp (name : Str) (cfunc : List Act) : Comp := ⟨name, cfunc, [], [], none, none, none⟩

def compF1 : Comp := newComp "f1".toList [.inp none ["A".toList], .out none ["B".toList]]
def compF2 : Comp := newComp "f2".toList [.inp none ["B".toList], .out none ["C".toList]]
def compRate : Comp := newComp "calc_foobar_rate".toList
  [.inp none [], .out none [], .out none ["Acc".toList], .inp none ["V".toList], .inp none ["T".toList], .fixInp "/x".toList]

/-- Inputs and outputs, as the documentation has them. -/
example : (assemblyBuild 9 Tests.toy ⟨[], [], []⟩ [compF1, compF2] none).2 =
    .ok (["f1/A".toList, "f2/B".toList], ["f1/B".toList, "f2/C".toList]) := by rfl

example : outcome (compRate.build 9 Tests.toy ⟨[], [], []⟩ none) =
    some (["/x".toList, "calc_foobar_rate/T".toList, "calc_foobar_rate/V".toList], ["calc_foobar_rate/Acc".toList]) := by rfl

/-- C60 needs the component to have a name: one without reports nothing that it reads, because
a step with an empty text is false for `_fetch_all_paths` (`pandalone/components.py:200`). -/
theorem C60_empty_name_refuted :
    outcome ((newComp "".toList [.inp none ["A".toList], .out none ["B".toList]]).build 9 Tests.toy ⟨[], [], []⟩ none) =
      some ([], []) := by rfl

/-- Mappings of `calc_foobar_rate` to `/A/B`. -/
def mapsRate : List PmodObj := [⟨none, [("calc_foobar_rate".toList, 1)], []⟩, ⟨some "/A/B".toList, [], []⟩]
def treeRate : Pmod := .mk none [("calc_foobar_rate".toList, .mk (some "/A/B".toList) [] [])] []

example : outcome (compRate.build 9 Tests.toy ⟨mapsRate, [], []⟩ (some 0)) =
    some (["/x".toList, "/A/B/T".toList, "/A/B/V".toList], ["/A/B/Acc".toList]) := by rfl

/-- The hypotheses are met. -/
theorem rate_usable : Usable 9 mapsRate (some 0) ∧ Den mapsRate 0 treeRate := by
  have : Den mapsRate 0 treeRate := .mk 0 ⟨none, [("calc_foobar_rate".toList, 1)], []⟩ _ _ rfl
    (.cons _ 1 _ _ _ (.mk 1 ⟨some "/A/B".toList, [], []⟩ _ _ rfl .nil .nil) .nil) .nil
  exact ⟨⟨some treeRate, this, fun x hx => by cases hx; decide +kernel⟩, this⟩

example : ∀ c ∈ [compF1, compF2, compRate], (∀ a ∈ c.cfunc, SoundAct 9 a) ∧ Plain c.name ∧ Ordinary c.name ∧
    ∀ a ∈ inpAsks c.cfunc ++ outAsks c.cfunc, (∀ p, a.1 = some p → p = "".toList ∨ Plain p ∧ Ordinary p) ∧
      ∀ k ∈ a.2, Plain k ∧ Ordinary k := by
  intro c hc
  simp only [List.mem_cons, List.not_mem_nil, or_false] at hc
  rcases hc with rfl | rfl | rfl <;>
  simp [compF1, compF2, compRate, newComp, SoundAct, inpAsks, outAsks, Plain, Ordinary]

example : PlainAliases Tests.toy treeRate compRate.name (inpAsks compRate.cfunc) := by
  intro q hq a as h
  have hA : RootAlias "/A/B".toList := .inr ⟨"A".toList, ["B".toList], rfl, by unfold Plain Ordinary; decide⟩
  cases h with
  | on _ pm' _ _ _ _ hd hr =>
    have h2 : treeRate.descend Tests.toy "calc_foobar_rate".toList = .ok (some (.mk (some "/A/B".toList) [] []), some "/A/B".toList) := rfl
    change treeRate.descend Tests.toy "calc_foobar_rate".toList = _ at hd
    rw [h2] at hd
    cases hd
    refine ⟨fun x hx => by cases hx; exact hA, fun x hx => ?_⟩
    exfalso
    have hq' : q = [] ∨ q = ["V".toList] ∨ q = ["T".toList] := by
      simpa [inpAsks, compRate, newComp, or_assoc] using hq
    rcases hq' with rfl | rfl | rfl
    · cases hr; cases hx
    · cases hr with
      | on _ _ _ _ _ _ hd hr => cases hd; cases hr; simp at hx
    · cases hr with
      | on _ _ _ _ _ _ hd hr => cases hd; cases hr; simp at hx

end Props
