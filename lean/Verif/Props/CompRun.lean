import Verif.Lemmas.CompRun
import Verif.Props.Components
/-
C131: the life of components: how they are named, and histories of building and calling them.
-/
namespace Props
open Py Model Spec Lemmas

/-- C131. The name of a component: the one that is given, whatever it is; else the name of its function
without the prefix `cfunc_`, which is removed once; else the name of its function.  An assembly without a
name, or with an empty one, is called `assembly`. -/
theorem C131_names (fname : Str) (name : Option Str) :
    (∀ n, name = some n → compName fname name = n) ∧
    (name = none → ∀ rest, fname = "cfunc_".toList ++ rest → compName fname name = rest) ∧
    (name = none → (¬ ∃ rest, fname = "cfunc_".toList ++ rest) → compName fname name = fname) ∧
    assemblyName name = (if name = none ∨ name = some "".toList then "assembly".toList else name.getD "".toList) := by
  have hsw : startsWith "cfunc_".toList fname = true ↔ ∃ rest, fname = "cfunc_".toList ++ rest := by
    constructor
    · intro h
      obtain ⟨rest, hr⟩ := List.isPrefixOf_iff_prefix.1 h
      exact ⟨rest, hr.symm⟩
    · rintro ⟨rest, rfl⟩
      exact List.isPrefixOf_iff_prefix.2 ⟨rest, rfl⟩
  have hd : ∀ m : Option Str, assemblyName m =
      (if m = none ∨ m = some "".toList then "assembly".toList else m.getD "".toList) := by
    intro m
    cases m with
    | none => rw [if_pos (.inl rfl)]; exact rfl
    | some n =>
      unfold assemblyName
      by_cases e : n = []
      · subst e
        rw [if_pos (.inr rfl)]; simp only [if_true]
      · rw [if_neg (by rintro (h | h); exact absurd h (by simp); injection h with h; exact e h)]
        simp only [if_neg e, Option.getD_some]
  refine ⟨?_, ?_, ?_, hd name⟩
  · rintro n rfl; rfl
  · rintro rfl rest hr
    have := hsw.2 ⟨rest, hr⟩
    simp only [compName, this, if_true]
    rw [hr]; exact List.drop_left
  · rintro rfl hno
    have : ¬ startsWith "cfunc_".toList fname = true := fun h => hno (hsw.1 h)
    simp only [compName, this]
    rfl

/-- C131. Whatever was done with any components before and whatever is done with the others meanwhile: once a
component has been built, and as long as its calls succeed, the paths of its input and output steps are those that
building a new component alone would give, whose function does at once all that was done in the build and the calls. -/
theorem C131_as_one_build (F : Nat) (E : RegexLib) (h : List PmodObj) (comps : List (Str × List Act)) (i : Nat)
    (name : Str) (cfunc : List Act) (hi : comps[i]? = some (name, cfunc)) (hs : ∀ p ∈ comps, ∀ a ∈ p.2, SoundAct F a)
    (before after : List CompOp) (pmod : Option Nat) (hu : Usable F h pmod)
    (hops : ∀ op ∈ before ++ after, SoundOp F h op) (w : CompWorld)
    (hb : opOn F E (runWorld F E (freshWorld h comps) before) (.build i pmod) = (w, .ok ()))
    (hc : CallsSucceed F E i w after) :
    ∃ c li lo, (runWorld F E w after).objs[i]? = some ⟨c, true⟩ ∧
      fetchAllPaths F (runWorld F E w after).σ c.pinp = .ok li ∧
      fetchAllPaths F (runWorld F E w after).σ c.pout = .ok lo ∧
      outcome ((CompObj.init name (cfunc ++ actsOf i after)).comp.build F E ⟨h, [], []⟩ pmod) =
        some (fixedInp (cfunc ++ actsOf i after) ++ li, fixedOut (cfunc ++ actsOf i after) ++ lo) := by
  have w0 := freshWorld_ok (E := E) (tidy_nothing F E h) hs
  have w1 := runWorld_ok before w0 (fun o ho => hops o (by simp [ho]))
  have hi0 : (freshWorld h comps).objs[i]? = some (CompObj.init name cfunc) := by
    simp [freshWorld, hi]
  obtain ⟨o, ho, hn, hcf⟩ := runWorld_same before w0 (fun o ho => hops o (by simp [ho])) hi0
  obtain ⟨t, hd, hdep⟩ := hu
  have htw : ∀ x, t = some x → Within F x := fun x hx => (within_depth x).mono F (hdep x hx)
  obtain ⟨li0, lo0, _, _, ht⟩ := build_tracked (E := E) w1 ho (denOpt_ext w1.ext hd) htw hb
  have w2 : WorldOk F E h w := by
    have := opOn_ok (E := E) w1 (op := .build i pmod) ⟨t, hd, hdep⟩
    rw [hb] at this; exact this
  rw [hn, hcf] at ht
  have hcalls : ∀ op ∈ after, SoundOp F h op := fun o ho => hops o (by simp [ho])
  have hsound : ∀ a ∈ cfunc ++ actsOf i after, SoundAct F a := by
    intro a ha
    rcases List.mem_append.1 ha with ha | ha
    · exact hs _ (List.mem_of_getElem? hi) a ha
    · clear hc hops hb hi hs w1 ho hn hcf
      induction after with
      | nil => cases ha
      | cons op ops ih =>
        cases op with
        | build j p => exact ih (fun o ho => hcalls o (by simp [ho])) (List.mem_append_right _ ha) ha
        | call j acts =>
          rcases List.mem_append.1 ha with ha | ha
          · split at ha
            · exact hcalls (.call j acts) (by simp) a ha
            · cases ha
          · exact ih (fun o ho => hcalls o (by simp [ho])) (List.mem_append_right _ ha) ha
  obtain ⟨c, g1, g2, g3, g4, g5, g6⟩ := tracked_history htw after w2 hcalls hc ht
  have hlen : ∀ a ∈ inpAsks (cfunc ++ actsOf i after), a.2.length < F := by
    intro a ha
    obtain ⟨b, hb, hb2⟩ := List.mem_filterMap.1 ha
    cases b with
    | inp p ch => cases hb2; exact (hsound _ hb).2
    | _ => cases hb2
  have hlen2 : ∀ a ∈ outAsks (cfunc ++ actsOf i after), a.2.length < F := by
    intro a ha
    obtain ⟨b, hb, hb2⟩ := List.mem_filterMap.1 ha
    cases b with
    | out p ch => cases hb2; exact (hsound _ hb).2
    | _ => cases hb2
  obtain ⟨li, l1, l2⟩ := askedPaths_fetch (F := F) g6.tidy g6.inp.2 hlen
  obtain ⟨lo, o1, o2⟩ := askedPaths_fetch (F := F) g6.tidy g6.out.2 hlen2
  refine ⟨c, li, lo, g1, l1, o1, ?_⟩
  have hname : c.name = name := g2
  have ask1 := g6.inp.1
  have ask2 := g6.out.1
  rw [hname] at l2 o2 ask1 ask2
  rcases build_spec (F := F) (D := F) (E := E) (Nat.le_refl F) htw (tidy_nothing F E h) hd
    (CompObj.init name (cfunc ++ actsOf i after)).comp hsound with
    ⟨σ', c', e, b1, b2, b3, b4⟩ | ⟨σ', c', li', lo', b1, b2, b3, b4, b5, b6, b7, b8, b9, b10⟩
  · exact absurd ⟨ask1, ask2⟩ b4
  · rw [b1]
    simp only [outcome, b7, b8, askedPaths_unique b9 l2, askedPaths_unique b10 o2]
    rfl

/-- C131. The inputs and outputs that a component declares after such a history: those of its build, which are
what building it alone gives, followed by the fixed ones that its calls have added. -/
theorem C131_declared (F : Nat) (E : RegexLib) (h : List PmodObj) (comps : List (Str × List Act)) (i : Nat)
    (name : Str) (cfunc : List Act) (hi : comps[i]? = some (name, cfunc)) (hs : ∀ p ∈ comps, ∀ a ∈ p.2, SoundAct F a)
    (before after : List CompOp) (pmod : Option Nat) (hu : Usable F h pmod)
    (hops : ∀ op ∈ before ++ after, SoundOp F h op) (w : CompWorld)
    (hb : opOn F E (runWorld F E (freshWorld h comps) before) (.build i pmod) = (w, .ok ()))
    (hc : CallsSucceed F E i w after) :
    ∃ c inp out, (runWorld F E w after).objs[i]? = some ⟨c, true⟩ ∧ c.name = name ∧
      outcome ((CompObj.init name cfunc).comp.build F E ⟨h, [], []⟩ pmod) = some (inp, out) ∧
      c.inp = inp ++ fixedInp (actsOf i after) ∧ c.out = out ++ fixedOut (actsOf i after) := by
  have w0 := freshWorld_ok (E := E) (tidy_nothing F E h) hs
  have w1 := runWorld_ok before w0 (fun o ho => hops o (by simp [ho]))
  have hi0 : (freshWorld h comps).objs[i]? = some (CompObj.init name cfunc) := by
    simp [freshWorld, hi]
  obtain ⟨o, ho, hn, hcf⟩ := runWorld_same before w0 (fun o ho => hops o (by simp [ho])) hi0
  obtain ⟨t, hd, hdep⟩ := hu
  have htw : ∀ x, t = some x → Within F x := fun x hx => (within_depth x).mono F (hdep x hx)
  obtain ⟨li0, lo0, p1, p2, ht⟩ := build_tracked (E := E) w1 ho (denOpt_ext w1.ext hd) htw hb
  have w2 : WorldOk F E h w := by
    have := opOn_ok (E := E) w1 (op := .build i pmod) ⟨t, hd, hdep⟩
    rw [hb] at this; exact this
  rw [hn, hcf] at ht p1 p2
  obtain ⟨c0, f1, f2, f3, f4, f5, f6⟩ := id ht
  obtain ⟨c, g1, g2, g3, g4, g5, g6⟩ := tracked_history htw after w2 (fun o ho => hops o (by simp [ho])) hc ht
  refine ⟨c, _, _, g1, g2, ?_, g4, g5⟩
  have ask1 := f6.inp.1
  have ask2 := f6.out.1
  rw [f2] at ask1 ask2
  rcases build_spec (F := F) (D := F) (E := E) (Nat.le_refl F) htw (tidy_nothing F E h) hd
    (CompObj.init name cfunc).comp (hs _ (List.mem_of_getElem? hi)) with
    ⟨σ', c', e, b1, b2, b3, b4⟩ | ⟨σ', c', li', lo', b1, b2, b3, b4, b5, b6, b7, b8, b9, b10⟩
  · exact absurd ⟨ask1, ask2⟩ b4
  · rw [b1]
    simp only [outcome, b7, b8, askedPaths_unique b9 p1, askedPaths_unique b10 p2, CompObj.init]

/-- C131. A call whose function does only what it did in the build, or in calls since, succeeds and makes no
step: only the fixed paths it adds are declared once more. -/
theorem C131_again (F : Nat) (E : RegexLib) (h : List PmodObj) (comps : List (Str × List Act)) (i : Nat)
    (name : Str) (cfunc : List Act) (hi : comps[i]? = some (name, cfunc)) (hs : ∀ p ∈ comps, ∀ a ∈ p.2, SoundAct F a)
    (before after : List CompOp) (pmod : Option Nat) (hu : Usable F h pmod)
    (hops : ∀ op ∈ before ++ after, SoundOp F h op) (w : CompWorld)
    (hb : opOn F E (runWorld F E (freshWorld h comps) before) (.build i pmod) = (w, .ok ()))
    (hc : CallsSucceed F E i w after) (acts : List Act) (ha : ∀ a ∈ acts, a ∈ cfunc ++ actsOf i after) :
    ∃ c, (runWorld F E w after).objs[i]? = some ⟨c, true⟩ ∧
      opOn F E (runWorld F E w after) (.call i acts) =
        (⟨(runWorld F E w after).σ, (runWorld F E w after).objs.set i
          ⟨{ c with inp := c.inp ++ fixedInp acts, out := c.out ++ fixedOut acts }, true⟩⟩, .ok ()) := by
  have w0 := freshWorld_ok (E := E) (tidy_nothing F E h) hs
  have w1 := runWorld_ok before w0 (fun o ho => hops o (by simp [ho]))
  have hi0 : (freshWorld h comps).objs[i]? = some (CompObj.init name cfunc) := by
    simp [freshWorld, hi]
  obtain ⟨o, ho, hn, hcf⟩ := runWorld_same before w0 (fun o ho => hops o (by simp [ho])) hi0
  obtain ⟨t, hd, hdep⟩ := hu
  have htw : ∀ x, t = some x → Within F x := fun x hx => (within_depth x).mono F (hdep x hx)
  obtain ⟨li0, lo0, p1, p2, ht⟩ := build_tracked (E := E) w1 ho (denOpt_ext w1.ext hd) htw hb
  have w2 : WorldOk F E h w := by
    have := opOn_ok (E := E) w1 (op := .build i pmod) ⟨t, hd, hdep⟩
    rw [hb] at this; exact this
  rw [hn, hcf] at ht
  obtain ⟨c, g1, g2, g3, g4, g5, g6⟩ := tracked_history htw after w2 (fun o ho => hops o (by simp [ho])) hc ht
  refine ⟨c, g1, ?_⟩
  have := runActs_again (E := E) acts g6 (fun a h' => ?_) (fun a h' => ?_)
  · simp only [opOn, g1, if_true, this]
  · obtain ⟨b, hb, hb2⟩ := List.mem_filterMap.1 h'
    exact List.mem_filterMap.2 ⟨b, ha b hb, hb2⟩
  · obtain ⟨b, hb, hb2⟩ := List.mem_filterMap.1 h'
    exact List.mem_filterMap.2 ⟨b, ha b hb, hb2⟩

/-- C131. Whatever was done before with this component and others, building it gives what building it alone
gives: it raises if that raises, and else it declares the same inputs and outputs. -/
theorem C131_rebuild (F : Nat) (E : RegexLib) (h : List PmodObj) (comps : List (Str × List Act)) (i : Nat)
    (name : Str) (cfunc : List Act) (hi : comps[i]? = some (name, cfunc)) (hs : ∀ p ∈ comps, ∀ a ∈ p.2, SoundAct F a)
    (before : List CompOp) (pmod : Option Nat) (hu : Usable F h pmod) (hops : ∀ op ∈ before, SoundOp F h op) :
    match outcome ((CompObj.init name cfunc).comp.build F E ⟨h, [], []⟩ pmod) with
    | none => ∃ w e, opOn F E (runWorld F E (freshWorld h comps) before) (.build i pmod) = (w, .error e)
    | some (inp, out) => ∃ w c, opOn F E (runWorld F E (freshWorld h comps) before) (.build i pmod) = (w, .ok ()) ∧
        w.objs[i]? = some ⟨c, true⟩ ∧ c.inp = inp ∧ c.out = out := by
  have w0 := freshWorld_ok (E := E) (tidy_nothing F E h) hs
  have w1 := runWorld_ok before w0 hops
  have hi0 : (freshWorld h comps).objs[i]? = some (CompObj.init name cfunc) := by
    simp [freshWorld, hi]
  obtain ⟨o, ho, hn, hcf⟩ := runWorld_same before w0 hops hi0
  have hlt := (List.getElem?_eq_some_iff.1 ho).1
  obtain ⟨b1, _⟩ := build_alone w1.tidy w1.ext hu o.comp (w1.sound i o ho)
  rw [build_name_cfunc F E ⟨h, [], []⟩ pmod (c := (CompObj.init name cfunc).comp) (c' := o.comp) hn hcf] at b1
  rw [← b1]
  simp only [opOn, ho]
  generalize o.comp.build F E (runWorld F E (freshWorld h comps) before).σ pmod = g
  obtain ⟨⟨σ1, c1⟩, r⟩ := g
  cases r with
  | error e => exact ⟨_, e, rfl⟩
  | ok u => exact ⟨_, c1, rfl, List.getElem?_set_self hlt, rfl, rfl⟩

/-- The component is built in this history. -/
def BuiltIn (i : Nat) (ops : List CompOp) : Prop := ∃ pmod, CompOp.build i pmod ∈ ops

private theorem unbuilt_kept {F : Nat} {E : RegexLib} {i : Nat} (ops : List CompOp) : ∀ {w : CompWorld} {c : Comp},
    w.objs[i]? = some ⟨c, false⟩ → ¬ BuiltIn i ops → (runWorld F E w ops).objs[i]? = some ⟨c, false⟩ := by
  induction ops with
  | nil => intro w c h _; exact h
  | cons op ops ih =>
    intro w c h hn
    have h1 : (opOn F E w op).1.objs[i]? = some ⟨c, false⟩ := by
      cases op with
      | build j pmod =>
        have hne : j ≠ i := fun e => hn ⟨pmod, by rw [← e]; simp⟩
        simp only [opOn]
        cases hj : w.objs[j]? with
        | none => exact h
        | some o => simp only; rw [List.getElem?_set_ne hne]; exact h
      | call j acts =>
        simp only [opOn]
        cases hj : w.objs[j]? with
        | none => exact h
        | some o =>
          by_cases e : j = i
          · subst e
            rw [h] at hj; injection hj with hj; subst hj
            cases acts <;> exact h
          · by_cases hb : o.built = true
            · simp only [hb, if_true]; rw [List.getElem?_set_ne e]; exact h
            · simp only [hb]; cases acts <;> exact h
    exact ih h1 (fun ⟨p, hp⟩ => hn ⟨p, by simp [hp]⟩)

/-- C131. A component that was never built can be called only if its function asks nothing of it: else the call
raises an `AttributeError`; nothing is altered. -/
theorem C131_unbuilt (F : Nat) (E : RegexLib) (h : List PmodObj) (comps : List (Str × List Act)) (i : Nat)
    (hi : i < comps.length) (ops : List CompOp) (hn : ¬ BuiltIn i ops) (acts : List Act) :
    opOn F E (runWorld F E (freshWorld h comps) ops) (.call i acts) =
      (runWorld F E (freshWorld h comps) ops, if acts.isEmpty then .ok () else .error .attributeError) := by
  have hi0 : (freshWorld h comps).objs[i]? = some (CompObj.init comps[i].1 comps[i].2) := by
    simp [freshWorld, List.getElem?_eq_getElem hi]
  have := unbuilt_kept (F := F) (E := E) ops (c := (CompObj.init comps[i].1 comps[i].2).comp) hi0 hn
  simp only [opOn, this]
  cases acts <;> rfl

/-- C131. What a component declares does not change when its function is called, if no call adds fixed paths.
(Missing: calls that do, see `C131_fixed_refuted`.) -/
theorem C131_stable_partial (F : Nat) (E : RegexLib) (h : List PmodObj) (comps : List (Str × List Act)) (i : Nat)
    (name : Str) (cfunc : List Act) (hi : comps[i]? = some (name, cfunc)) (hs : ∀ p ∈ comps, ∀ a ∈ p.2, SoundAct F a)
    (before after : List CompOp) (pmod : Option Nat) (hu : Usable F h pmod)
    (hops : ∀ op ∈ before ++ after, SoundOp F h op) (w : CompWorld)
    (hb : opOn F E (runWorld F E (freshWorld h comps) before) (.build i pmod) = (w, .ok ()))
    (hc : CallsSucceed F E i w after)
    (hfix : ∀ a ∈ actsOf i after, (∃ p ch, a = .inp p ch) ∨ ∃ p ch, a = .out p ch) :
    ∃ c c', w.objs[i]? = some ⟨c, true⟩ ∧ (runWorld F E w after).objs[i]? = some ⟨c', true⟩ ∧ c'.inp = c.inp ∧ c'.out = c.out := by
  obtain ⟨c, inp, out, h1, _, h3, h4, h5⟩ := C131_declared F E h comps i name cfunc hi hs before [] pmod hu
    (fun o ho => hops o (by simpa using Or.inl (by simpa using ho))) w hb trivial
  obtain ⟨c', inp', out', g1, _, g3, g4, g5⟩ := C131_declared F E h comps i name cfunc hi hs before after pmod hu hops w hb hc
  rw [h3] at g3
  cases g3
  have f1 : fixedInp (actsOf i after) = [] := by
    refine List.filterMap_eq_nil_iff.2 (fun a ha => ?_)
    rcases hfix a ha with ⟨p, ch, rfl⟩ | ⟨p, ch, rfl⟩ <;> rfl
  have f2 : fixedOut (actsOf i after) = [] := by
    refine List.filterMap_eq_nil_iff.2 (fun a ha => ?_)
    rcases hfix a ha with ⟨p, ch, rfl⟩ | ⟨p, ch, rfl⟩ <;> rfl
  refine ⟨c, c', h1, g1, ?_, ?_⟩
  · rw [g4, h4, f1]; simp [actsOf, fixedInp]
  · rw [g5, h5, f2]; simp [actsOf, fixedOut]

/-! ### Cases -/

/-- The function of the example reads two inputs and an output, and adds a fixed input. -/
def fixedFunc : List Act := [.fixInp "/unit".toList, .inp none ["V".toList], .out none ["Acc".toList]]

def compsRun : List (Str × List Act) := [("rate".toList, fixedFunc), ("f2".toList, [.inp none ["B".toList], .out none ["C".toList]])]

/-- C131 fails for fixed paths: each call declares them once more. -/
theorem C131_fixed_refuted :
    let w := (opOn 9 Tests.toy (freshWorld [] compsRun) (.build 0 none)).1
    let w' := (opOn 9 Tests.toy w (.call 0 fixedFunc)).1
    (w.objs[0]?.map (fun o => o.comp.inp) = some ["/unit".toList, "rate/V".toList]) ∧
    (w'.objs[0]?.map (fun o => o.comp.inp) = some ["/unit".toList, "rate/V".toList, "/unit".toList]) := by
  decide +kernel

/-- The hypotheses are met, with mappings, other components and calls that read more. -/
example : (∀ p ∈ compsRun, ∀ a ∈ p.2, SoundAct 9 a) ∧
    (∀ op ∈ [CompOp.build 1 (some 0), .call 1 [.inp none ["B".toList]]] ++ [CompOp.call 0 fixedFunc, .build 1 none,
      .call 0 [.inp none ["V".toList, "x".toList]]], SoundOp 9 mapsRate op) := by
  refine ⟨?_, ?_⟩
  · intro p hp a ha
    simp only [compsRun, List.mem_cons, List.not_mem_nil, or_false] at hp
    rcases hp with rfl | rfl <;> simp only [fixedFunc, List.mem_cons, List.not_mem_nil, or_false] at ha
    · rcases ha with rfl | rfl | rfl
      · trivial
      · exact ⟨by decide +kernel, by decide +kernel⟩
      · exact ⟨by decide +kernel, by decide +kernel⟩
    · rcases ha with rfl | rfl <;> exact ⟨by decide +kernel, by decide +kernel⟩
  · intro op hop
    simp only [List.cons_append, List.nil_append, List.mem_cons, List.not_mem_nil, or_false] at hop
    rcases hop with rfl | rfl | rfl | rfl | rfl
    · exact rate_usable.1
    · intro a ha
      simp only [List.mem_cons, List.not_mem_nil, or_false] at ha
      subst ha; exact ⟨by decide +kernel, by decide +kernel⟩
    · intro a ha
      simp only [fixedFunc, List.mem_cons, List.not_mem_nil, or_false] at ha
      rcases ha with rfl | rfl | rfl
      · trivial
      · exact ⟨by decide +kernel, by decide +kernel⟩
      · exact ⟨by decide +kernel, by decide +kernel⟩
    · exact ⟨none, trivial, fun x hx => by cases hx⟩
    · intro a ha
      simp only [List.mem_cons, List.not_mem_nil, or_false] at ha
      subst ha; exact ⟨by decide +kernel, by decide +kernel⟩

def wRun : CompWorld := (opOn 9 Tests.toy (runWorld 9 Tests.toy (freshWorld mapsRate compsRun)
  [.build 1 (some 0), .call 1 [.inp none ["B".toList]]]) (.build 0 (some 0))).1
def afterRun : List CompOp := [.call 0 fixedFunc, .build 1 none, .call 0 [.inp none ["V".toList, "x".toList]]]

example : ((opOn 9 Tests.toy (runWorld 9 Tests.toy (freshWorld mapsRate compsRun)
    [.build 1 (some 0), .call 1 [.inp none ["B".toList]]]) (.build 0 (some 0))).2 matches .ok ()) = true := by decide +kernel

example : CallsSucceed 9 Tests.toy 0 wRun afterRun := by
  refine ⟨fun _ => rfl, by decide, fun _ => rfl, trivial⟩

/-- The paths of the input step then are those of all that was read. -/
example : ((runWorld 9 Tests.toy wRun afterRun).objs[0]?.map (fun o =>
    match fetchAllPaths 9 (runWorld 9 Tests.toy wRun afterRun).σ o.comp.pinp with
    | .ok l => decide (l = ["rate/V/x".toList])
    | _ => false)) = some true := by decide +kernel

example : ¬ BuiltIn 0 [CompOp.build 1 none, .call 0 []] := by
  rintro ⟨p, hp⟩
  simp at hp

example : compName "cfunc_calc".toList none = "calc".toList ∧ compName "cfunc_cfunc_a".toList none = "cfunc_a".toList ∧
    compName "calc".toList none = "calc".toList ∧ compName "cfunc_a".toList (some "cfunc_b".toList) = "cfunc_b".toList := by
  decide +kernel

end Props
