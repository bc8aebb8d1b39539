import Verif.Lemmas.PmodHeap
import Verif.Lemmas.List
import Verif.Spec.PstepPaths
/-
Trees of steps: what reading attributes builds.
-/
set_option linter.unusedSimpArgs false
namespace Lemmas
open Py Model Spec

theorem replace2_ne_nil (a b c : Char) : ∀ s : Str, s ≠ [] → replace2 a b [c] s ≠ []
  | [], h => absurd rfl h
  | [x], _ => by simp [replace2]
  | x :: y :: t, _ => by rw [replace2]; split <;> simp

theorem unescapePart_ne_nil {s : Str} (h : s ≠ []) : unescapePart s ≠ [] :=
  replace2_ne_nil _ _ _ _ (replace2_ne_nil _ _ _ _ h)

theorem nameFor_ne_nil {k : Str} (hk : k ≠ []) (a : Option Str) : nameFor k a ≠ [] := by
  cases a with
  | none => exact hk
  | some m =>
    unfold nameFor
    simp only
    split
    · exact hk
    · next h => exact unescapePart_ne_nil h

/-- Descending from mappings, or from none. -/
def descOpt (E : RegexLib) : Option Pmod → Str → Except PyErr (Option Pmod × Option Str)
  | none, _ => .ok (none, none)
  | some t, k => t.descend E k

/-- What reading builds: every step has its own dictionary of children, children come after their
parents and have one parent only, and carry the name and the mappings that their parents' give. -/
structure Tidy (D : Nat) (E : RegexLib) (σ : PsState) : Prop where
  unshared : ∀ (i j : Nat) (oi oj : StepObj) (d : Nat), σ.steps[i]? = some oi → σ.steps[j]? = some oj →
    oi.csteps = some d → oj.csteps = some d → i = j
  valid : ∀ (i : Nat) (o : StepObj) (d : Nat), σ.steps[i]? = some o → o.csteps = some d → d < σ.dicts.length
  keys : ∀ (i : Nat) (o : StepObj), σ.steps[i]? = some o → (dkeys (σ.kids o)).Nodup
  up : ∀ s k c, Edge σ s k c → s < c ∧ c < σ.steps.length
  parent : ∀ s k s' k' c, Edge σ s k c → Edge σ s' k' c → s = s' ∧ k = k'
  den : ∀ (i : Nat) (o : StepObj), σ.steps[i]? = some o →
    ∃ t, DenOpt σ.pmods o.pmod t ∧ ∀ t', t = some t' → Within D t'
  link : ∀ s k c os, Edge σ s k c → σ.steps[s]? = some os → ∃ oc t t' al, σ.steps[c]? = some oc ∧
    DenOpt σ.pmods os.pmod t ∧ descOpt E t k = .ok (t', al) ∧ DenOpt σ.pmods oc.pmod t' ∧
    oc.name = nameFor k al ∧ oc.name ≠ []

/-- The state after a child has been made. -/
def madeState (σ : PsState) (s : Nat) (o : StepObj) (k name : Str) (pm : Option Nat) (h' : List PmodObj) : PsState :=
  ⟨h', (withDict σ s o).1.steps ++ [⟨name, k, pm, none, canRelocate, []⟩],
    (withDict σ s o).1.dicts.set (withDict σ s o).2 (dset (σ.kids o) k σ.steps.length)⟩

section made
variable {D : Nat} {E : RegexLib} {σ : PsState} {s : Nat} {o : StepObj} {k name : Str} {pm : Option Nat}
  {h' : List PmodObj}

theorem withDict_snd (h : Tidy D E σ) (hs : σ.steps[s]? = some o) :
    (withDict σ s o).2 < (withDict σ s o).1.dicts.length ∧
    ∀ (i : Nat) (oi : StepObj) (d : Nat), i ≠ s → σ.steps[i]? = some oi → oi.csteps = some d → d ≠ (withDict σ s o).2 := by
  unfold withDict
  split
  · next d h1 h2 =>
    refine ⟨h.valid s o d hs h1, fun i oi d' hi hoi hd e => hi ?_⟩
    simp only at e; subst e
    exact h.unshared i s oi o d' hoi hs hd h1
  · refine ⟨by simp, fun i oi d' hi hoi hd e => ?_⟩
    simp only at e; subst e
    exact absurd (h.valid i oi _ hoi hd) (by omega)

/-- The steps after a child has been made: those before, and the new one. -/
theorem made_step (h : Tidy D E σ) (hs : σ.steps[s]? = some o) {i : Nat} {oi' : StepObj}
    (hi : (madeState σ s o k name pm h').steps[i]? = some oi') :
    (i = σ.steps.length ∧ oi' = ⟨name, k, pm, none, canRelocate, []⟩) ∨
    (∃ oi, σ.steps[i]? = some oi ∧ oi'.pmod = oi.pmod ∧ oi'.name = oi.name ∧ oi'.tags = oi.tags ∧
      (madeState σ s o k name pm h').kids oi' = if i = s then dset (σ.kids o) k σ.steps.length else σ.kids oi) := by
  have hl := withDict_length σ s o
  obtain ⟨hlt, hne⟩ := withDict_snd h hs
  obtain ⟨o', ho', hcs, hpm, hss, hoth⟩ := withDict_steps hs
  simp only [madeState] at hi
  rcases Nat.lt_or_ge i σ.steps.length with hil | hil
  · right
    rw [List.getElem?_append_left (by omega)] at hi
    by_cases e : i = s
    · subst e
      rw [ho'] at hi; injection hi with hi; subst hi
      refine ⟨o, hs, hpm, hss.name, hss.tags, ?_⟩
      rw [if_pos rfl]
      show (match o'.csteps with | none => [] | some d => _) = _
      rw [hcs]
      simp only [madeState]
      rw [List.getElem?_set_self hlt, Option.getD_some]
    · rw [hoth i e] at hi
      refine ⟨oi', hi, rfl, rfl, rfl, ?_⟩
      rw [if_neg e]
      unfold PsState.kids
      cases hc : oi'.csteps with
      | none => rfl
      | some d =>
        simp only [madeState]
        rw [List.getElem?_set_ne (Ne.symm (hne i oi' d e hi hc))]
        have hv := h.valid i oi' d hi hc
        rw [(withDict_ext σ s o).get (List.getElem?_eq_getElem hv), List.getElem?_eq_getElem hv]
  · left
    rw [List.getElem?_append_right (by omega), hl] at hi
    have : i - σ.steps.length = 0 := by
      have := (List.getElem?_eq_some_iff.1 hi).1
      simp only [List.length_cons, List.length_nil] at this
      omega
    rw [this] at hi
    simp only [List.getElem?_cons_zero, Option.some.injEq] at hi
    exact ⟨by omega, hi.symm⟩

theorem made_step_old (h : Tidy D E σ) (hs : σ.steps[s]? = some o) {i : Nat} {oi : StepObj}
    (hi : σ.steps[i]? = some oi) : ∃ oi', (madeState σ s o k name pm h').steps[i]? = some oi' ∧
      oi'.pmod = oi.pmod ∧ oi'.name = oi.name ∧ oi'.tags = oi.tags ∧
      (madeState σ s o k name pm h').kids oi' = if i = s then dset (σ.kids o) k σ.steps.length else σ.kids oi := by
  have hl := withDict_length σ s o
  have hlt := (List.getElem?_eq_some_iff.1 hi).1
  have : i < (madeState σ s o k name pm h').steps.length := by
    simp only [madeState, List.length_append]; omega
  have hx := List.getElem?_eq_getElem this
  rcases made_step h hs hx with ⟨e, _⟩ | ⟨oi2, h1, h2⟩
  · omega
  · rw [hi] at h1; injection h1 with h1; subst h1
    exact ⟨_, hx, h2⟩

theorem made_step_new : (madeState σ s o k name pm h').steps[σ.steps.length]? =
    some ⟨name, k, pm, none, canRelocate, []⟩ := by
  simp only [madeState]
  rw [← withDict_length σ s o]
  exact List.getElem?_concat_length

/-- The children after one has been made. -/
theorem made_edge (h : Tidy D E σ) (hs : σ.steps[s]? = some o) (hno : dget (σ.kids o) k = none) {a c : Nat} {l : Str} :
    Edge (madeState σ s o k name pm h') a l c ↔ Edge σ a l c ∨ (a = s ∧ l = k ∧ c = σ.steps.length) := by
  constructor
  · rintro ⟨oa, ha, hg⟩
    rcases made_step h hs ha with ⟨rfl, rfl⟩ | ⟨oi, hoi, _, _, _, hk⟩
    · cases hg
    · rw [hk] at hg
      by_cases e : a = s
      · subst e
        rw [hs] at hoi; injection hoi with hoi; subst hoi
        rw [if_pos rfl, dget_dset] at hg
        split at hg
        · next e => injection hg with hg; exact .inr ⟨rfl, e, hg.symm⟩
        · exact .inl ⟨o, hs, hg⟩
      · rw [if_neg e] at hg; exact .inl ⟨oi, hoi, hg⟩
  · rintro (⟨oa, ha, hg⟩ | ⟨rfl, rfl, rfl⟩)
    · obtain ⟨oa', ha', _, _, _, hk⟩ := made_step_old (k := k) (name := name) (pm := pm) (h' := h') h hs ha
      refine ⟨oa', ha', ?_⟩
      rw [hk]
      by_cases e : a = s
      · subst e
        rw [hs] at ha; injection ha with ha; subst ha
        rw [if_pos rfl, dget_dset]
        split
        · next e => subst e; rw [hno] at hg; cases hg
        · exact hg
      · rw [if_neg e]; exact hg
    · obtain ⟨oa', ha', _, _, _, hk⟩ := made_step_old (k := l) (name := name) (pm := pm) (h' := h') h hs hs
      refine ⟨oa', ha', ?_⟩
      rw [hk, if_pos rfl, dget_dset]; simp

/-- Making a child keeps the tree tidy. -/
theorem made_tidy (h : Tidy D E σ) (hs : σ.steps[s]? = some o) (hno : dget (σ.kids o) k = none)
    (hx : Ext σ.pmods h') {t t' : Option Pmod} {al : Option Str} (hd : DenOpt h' o.pmod t)
    (hdesc : descOpt E t k = .ok (t', al)) (hd' : DenOpt h' pm t') (hw : ∀ x, t' = some x → Within D x)
    (hname : name = nameFor k al) (hne : name ≠ []) : Tidy D E (madeState σ s o k name pm h') := by
  have hl := withDict_length σ s o
  obtain ⟨hlt, hned⟩ := withDict_snd h hs
  have hcs : ∀ (i : Nat) (oi' : StepObj) (d : Nat), (madeState σ s o k name pm h').steps[i]? = some oi' → oi'.csteps = some d →
      (i = s ∧ d = (withDict σ s o).2) ∨ (i ≠ s ∧ ∃ oi, σ.steps[i]? = some oi ∧ oi.csteps = some d) := by
    intro i oi' d hi hd
    obtain ⟨o', ho', hcs, hpm, hss, hoth⟩ := withDict_steps hs
    rcases made_step h hs hi with ⟨rfl, rfl⟩ | ⟨oi, hoi, _⟩
    · cases hd
    · have hil := (List.getElem?_eq_some_iff.1 hoi).1
      simp only [madeState] at hi
      rw [List.getElem?_append_left (by omega)] at hi
      by_cases e : i = s
      · subst e
        rw [ho'] at hi; injection hi with hi; subst hi
        rw [hcs] at hd; injection hd with hd
        exact .inl ⟨rfl, hd.symm⟩
      · rw [hoth i e] at hi
        exact .inr ⟨e, oi', hi, hd⟩
  have hlen : (madeState σ s o k name pm h').steps.length = σ.steps.length + 1 := by
    simp only [madeState, List.length_append, hl]; rfl
  constructor
  · intro i j oi oj d hi hj h1 h2
    rcases hcs i oi d hi h1 with ⟨e1, e2⟩ | ⟨e1, oi2, e2, e3⟩
    · rcases hcs j oj d hj h2 with ⟨f1, f2⟩ | ⟨f1, oj2, f2, f3⟩
      · rw [e1, f1]
      · exact absurd e2 (hned j oj2 d f1 f2 f3)
    · rcases hcs j oj d hj h2 with ⟨f1, f2⟩ | ⟨f1, oj2, f2, f3⟩
      · exact absurd f2 (hned i oi2 d e1 e2 e3)
      · exact h.unshared i j oi2 oj2 d e2 f2 e3 f3
  · intro i oi d hi h1
    simp only [madeState, List.length_set]
    rcases hcs i oi d hi h1 with ⟨e1, e2⟩ | ⟨e1, oi2, e2, e3⟩
    · rw [e2]; exact hlt
    · have := h.valid i oi2 d e2 e3
      obtain ⟨e, he⟩ := withDict_ext σ s o
      rw [he, List.length_append]; omega
  · intro i oi hi
    rcases made_step h hs hi with ⟨rfl, rfl⟩ | ⟨oi2, hoi, _, _, _, hk⟩
    · exact List.nodup_nil
    · rw [hk]
      by_cases e : i = s
      · rw [if_pos e]; exact nodup_dkeys_dset _ _ (h.keys s o hs)
      · rw [if_neg e]; exact h.keys i oi2 hoi
  · intro a l c he
    rw [hlen]
    rcases (made_edge h hs hno).1 he with he | ⟨rfl, rfl, rfl⟩
    · have := h.up a l c he; omega
    · have := (List.getElem?_eq_some_iff.1 hs).1; omega
  · intro a l a' l' c he he'
    rcases (made_edge h hs hno).1 he with he | ⟨rfl, rfl, rfl⟩
    · rcases (made_edge h hs hno).1 he' with he' | ⟨_, _, e⟩
      · exact h.parent a l a' l' c he he'
      · have := h.up _ _ _ he; omega
    · rcases (made_edge h hs hno).1 he' with he' | ⟨rfl, rfl, _⟩
      · have := h.up _ _ _ he'; omega
      · exact ⟨rfl, rfl⟩
  · intro i oi hi
    rcases made_step h hs hi with ⟨rfl, rfl⟩ | ⟨oi2, hoi, hp, _⟩
    · exact ⟨t', hd', hw⟩
    · obtain ⟨t, h1, h2⟩ := h.den i oi2 hoi
      rw [hp]
      exact ⟨t, denOpt_ext hx h1, h2⟩
  · intro a l c oa he ha
    rcases (made_edge h hs hno).1 he with he | ⟨rfl, rfl, rfl⟩
    · obtain ⟨oa0, ha0, _⟩ := id he
      obtain ⟨oc, u, u', al', h1, h2, h3, h4, h5, h6⟩ := h.link a l c oa0 he ha0
      obtain ⟨oc', hc1, hc2, hc3, _⟩ := made_step_old (k := k) (name := name) (pm := pm) (h' := h') h hs h1
      obtain ⟨oa', ha1, ha2, _⟩ := made_step_old (k := k) (name := name) (pm := pm) (h' := h') h hs ha0
      rw [ha] at ha1; injection ha1 with ha1; subst ha1
      exact ⟨oc', u, u', al', hc1, by rw [ha2]; exact denOpt_ext hx h2, h3,
        by rw [hc2]; exact denOpt_ext hx h4, by rw [hc3]; exact h5, by rw [hc3]; exact h6⟩
    · obtain ⟨oa', ha1, ha2, _⟩ := made_step_old (k := l) (name := name) (pm := pm) (h' := h') h hs hs
      rw [ha] at ha1; injection ha1 with ha1; subst ha1
      exact ⟨_, t, t', al, made_step_new, by rw [ha2]; exact hd, hdesc, hd', hname, hne⟩
end made

/-! ### Walks -/

/-- The steps `rs` are met when going down from `s` along the attributes `ks`. -/
inductive Walk (σ : PsState) : Nat → List Str → List Nat → Prop
  | nil (s) : Walk σ s [] []
  | cons (s k c ks rs) : Edge σ s k c → Walk σ c ks rs → Walk σ s (k :: ks) (c :: rs)

theorem edge_unique {σ : PsState} {s : Nat} {k : Str} {c c' : Nat} (h : Edge σ s k c) (h' : Edge σ s k c') : c = c' := by
  obtain ⟨o, h1, h2⟩ := h
  obtain ⟨o', h1', h2'⟩ := h'
  rw [h1] at h1'; injection h1' with h1'; subst h1'
  rw [h2] at h2'; injection h2'

theorem walk_unique {σ : PsState} {s : Nat} {ks : List Str} {rs rs' : List Nat} (h : Walk σ s ks rs)
    (h' : Walk σ s ks rs') : rs = rs' := by
  induction h generalizing rs' with
  | nil s => cases h'; rfl
  | cons s k c ks rs he _ ih =>
    cases h' with
    | cons _ _ c' _ rs' he' hw' =>
      have := edge_unique he he'
      subst this
      rw [ih hw']

/-- The last step of a walk. -/
def lastOf (s : Nat) (rs : List Nat) : Nat := (s :: rs).getLast (by simp)

theorem lastOf_cons (s c : Nat) (rs : List Nat) : lastOf s (c :: rs) = lastOf c rs := by
  simp [lastOf]

theorem lastOf_snoc (s c : Nat) (rs : List Nat) : lastOf s (rs ++ [c]) = c := by
  simp only [lastOf]
  rw [List.getLast_cons (by simp)]; simp

theorem walk_snoc {σ : PsState} {s : Nat} {ks : List Str} {rs : List Nat} (h : Walk σ s ks rs) {k : Str} {c : Nat}
    (he : Edge σ (lastOf s rs) k c) : Walk σ s (ks ++ [k]) (rs ++ [c]) := by
  induction h with
  | nil s => exact .cons s k c [] [] he (.nil c)
  | cons s k' c' ks rs he' _ ih =>
    exact .cons s k' c' _ _ he' (ih (by rw [← lastOf_cons s]; exact he))

theorem walk_snoc_inv {σ : PsState} {ks : List Str} : ∀ {s : Nat} {k : Str} {rs : List Nat}, Walk σ s (ks ++ [k]) rs →
    ∃ rs0 c, rs = rs0 ++ [c] ∧ Walk σ s ks rs0 ∧ Edge σ (lastOf s rs0) k c := by
  induction ks with
  | nil =>
    intro s k rs h
    cases h with
    | cons _ _ c _ rs he hw => cases hw; exact ⟨[], c, rfl, .nil s, he⟩
  | cons k' ks ih =>
    intro s k rs h
    cases h with
    | cons _ _ c _ rs he hw =>
      obtain ⟨rs0, c', rfl, h1, h2⟩ := ih hw
      exact ⟨c :: rs0, c', rfl, .cons s k' c ks rs0 he h1, by rw [lastOf_cons]; exact h2⟩

theorem walk_prefix {σ : PsState} {s : Nat} {ks qs : List Str} {rs : List Nat} (h : Walk σ s ks rs) (hp : qs <+: ks) :
    ∃ rs', Walk σ s qs rs' := by
  induction h generalizing qs with
  | nil s => rw [List.prefix_nil] at hp; subst hp; exact ⟨[], .nil s⟩
  | cons s k c ks rs he hw ih =>
    cases qs with
    | nil => exact ⟨[], .nil s⟩
    | cons q qs =>
      rw [List.cons_prefix_cons] at hp
      obtain ⟨rfl, hp⟩ := hp
      obtain ⟨rs', h'⟩ := ih hp
      exact ⟨c :: rs', .cons s q c qs rs' he h'⟩

theorem walk_le {D : Nat} {E : RegexLib} {σ : PsState} (ht : Tidy D E σ) {s : Nat} {ks : List Str} {rs : List Nat}
    (h : Walk σ s ks rs) : s ≤ lastOf s rs ∧ (ks ≠ [] → s < lastOf s rs) := by
  induction h with
  | nil s => exact ⟨Nat.le_refl _, fun h => absurd rfl h⟩
  | cons s k c ks rs he _ ih =>
    rw [lastOf_cons]
    have := ht.up s k c he
    exact ⟨by omega, fun _ => by omega⟩

theorem walk_lt {D : Nat} {E : RegexLib} {σ : PsState} (ht : Tidy D E σ) {s : Nat} {ks : List Str} {rs : List Nat}
    (h : Walk σ s ks rs) (hs : s < σ.steps.length) : lastOf s rs < σ.steps.length := by
  induction h with
  | nil s => exact hs
  | cons s k c ks rs he _ ih => rw [lastOf_cons]; exact ih (ht.up s k c he).2

/-- Two walks from a step to the same one are along the same attributes. -/
theorem walk_path_unique {D : Nat} {E : RegexLib} {σ : PsState} (ht : Tidy D E σ) {s : Nat} (ks : List Str) :
    ∀ {ks' : List Str} {rs rs' : List Nat}, Walk σ s ks rs → Walk σ s ks' rs' → lastOf s rs = lastOf s rs' → ks = ks' := by
  refine Lemmas.snocInd (P := fun ks => ∀ {ks' : List Str} {rs rs' : List Nat}, Walk σ s ks rs → Walk σ s ks' rs' →
    lastOf s rs = lastOf s rs' → ks = ks') ?_ ?_ ks
  · intro ks' rs rs' h h' he
    cases h
    cases ks' with
    | nil => rfl
    | cons k' ks' =>
      have := (walk_le ht h').2 (by simp)
      simp only [lastOf, List.getLast_singleton] at he this
      omega
  · intro ks k ih ks' rs rs' h h' he
    obtain ⟨rs0, c, rfl, h1, h2⟩ := walk_snoc_inv h
    rw [lastOf_snoc] at he
    rcases List.eq_nil_or_concat ks' with e | ⟨qs, q, e⟩
    · subst e
      cases h'
      have := (walk_le ht h).2 (by simp)
      rw [lastOf_snoc] at this
      simp only [lastOf, List.getLast_singleton] at he
      omega
    · rw [List.concat_eq_append] at e
      subst e
      obtain ⟨rs1, c', rfl, h1', h2'⟩ := walk_snoc_inv h'
      rw [lastOf_snoc] at he
      subst he
      obtain ⟨e1, e2⟩ := ht.parent _ _ _ _ _ h2 h2'
      subst e2
      rw [ih h1 h1' e1]

/-- There is a walk. -/
def Walkable (σ : PsState) (s : Nat) (ks : List Str) : Prop := ∃ rs, Walk σ s ks rs

section made
variable {D : Nat} {E : RegexLib} {σ : PsState} {s : Nat} {o : StepObj} {k name : Str} {pm : Option Nat}
  {h' : List PmodObj}

theorem made_walk_old (h : Tidy D E σ) (hs : σ.steps[s]? = some o) (hno : dget (σ.kids o) k = none) {a : Nat}
    {ks : List Str} {rs : List Nat} (hw : Walk σ a ks rs) : Walk (madeState σ s o k name pm h') a ks rs := by
  induction hw with
  | nil s => exact .nil s
  | cons a l c ks rs he _ ih => exact .cons a l c ks rs ((made_edge h hs hno).2 (.inl he)) ih

/-- The walks after a child has been made: those before, and the one to the new child. -/
theorem made_walkable (h : Tidy D E σ) (hs : σ.steps[s]? = some o) (hno : dget (σ.kids o) k = none) {r : Nat}
    {pre : List Str} {rs0 : List Nat} (hpre : Walk σ r pre rs0) (hlast : lastOf r rs0 = s) (qs : List Str) :
    Walkable (madeState σ s o k name pm h') r qs ↔ Walkable σ r qs ∨ qs = pre ++ [k] := by
  constructor
  · refine Lemmas.snocInd (P := fun qs => Walkable (madeState σ s o k name pm h') r qs → Walkable σ r qs ∨ qs = pre ++ [k])
      (fun _ => .inl ⟨[], .nil r⟩) ?_ qs
    rintro qs q ih ⟨rs, hw⟩
    obtain ⟨rs1, c, rfl, h1, h2⟩ := walk_snoc_inv hw
    rcases (made_edge h hs hno).1 h2 with h2 | ⟨e1, e2, e3⟩
    · rcases ih ⟨rs1, h1⟩ with ⟨rs2, h3⟩ | h3
      · have := walk_unique h1 (made_walk_old h hs hno h3)
        subst this
        exact .inl ⟨_, walk_snoc h3 h2⟩
      · exfalso
        subst h3
        have hn : Edge (madeState σ s o k name pm h') s k σ.steps.length := (made_edge h hs hno).2 (.inr ⟨rfl, rfl, rfl⟩)
        have h4 := walk_snoc (made_walk_old (name := name) (pm := pm) (h' := h') h hs hno hpre) (by rw [hlast]; exact hn)
        have := walk_unique h1 h4
        subst this
        rw [lastOf_snoc] at h2
        obtain ⟨ox, hx, _⟩ := h2
        have := (List.getElem?_eq_some_iff.1 hx).1
        omega
    · subst e2
      right
      rcases ih ⟨rs1, h1⟩ with ⟨rs2, h3⟩ | h3
      · have := walk_unique h1 (made_walk_old h hs hno h3)
        subst this
        rw [walk_path_unique h qs h3 hpre (by rw [e1, hlast])]
      · exfalso
        subst h3
        have hn : Edge (madeState σ s o q name pm h') s q σ.steps.length := (made_edge h hs hno).2 (.inr ⟨rfl, rfl, rfl⟩)
        have h4 := walk_snoc (made_walk_old (name := name) (pm := pm) (h' := h') h hs hno hpre) (by rw [hlast]; exact hn)
        have := walk_unique h1 h4
        subst this
        rw [lastOf_snoc] at e1
        have := (List.getElem?_eq_some_iff.1 hs).1
        omega
  · rintro (⟨rs, hw⟩ | rfl)
    · exact ⟨rs, made_walk_old h hs hno hw⟩
    · exact ⟨_, walk_snoc (made_walk_old h hs hno hpre)
        (by rw [hlast]; exact (made_edge h hs hno).2 (.inr ⟨rfl, rfl, rfl⟩))⟩
end made

/-- What reading one attribute does to a tidy tree: it fails if the mappings fail; else it goes to the
child there, which is made if there is none. -/
theorem getAttr_tidy {D F : Nat} {E : RegexLib} {σ : PsState} (h : Tidy D E σ) (hF : D ≤ F) {s : Nat} {o : StepObj}
    {k : Str} (hk : StepName k) (hk0 : k ≠ []) (hs : σ.steps[s]? = some o) {t : Option Pmod} (hd : DenOpt σ.pmods o.pmod t) :
    (∀ e, descOpt E t k = .error e → ∃ σ', getAttr F E σ s k = (σ', .error e)) ∧
    (∀ t' al, descOpt E t k = .ok (t', al) →
      ∃ σ' c, getAttr F E σ s k = (σ', .ok (some c)) ∧ Tidy D E σ' ∧ Ext σ.pmods σ'.pmods ∧ Edge σ' s k c ∧
        (∃ oc, σ'.steps[c]? = some oc ∧ DenOpt σ'.pmods oc.pmod t') ∧
        (∀ (i : Nat) (oi : StepObj), σ.steps[i]? = some oi → ∃ oi', σ'.steps[i]? = some oi' ∧ oi'.pmod = oi.pmod ∧
          oi'.name = oi.name ∧ oi'.tags = oi.tags) ∧
        (∀ (i : Nat) (oi' : StepObj), σ.steps.length ≤ i → σ'.steps[i]? = some oi' → oi'.tags = []) ∧
        (∀ a l c, Edge σ' a l c → c < σ.steps.length → Edge σ a l c) ∧
        (∀ a l c', Edge σ' a l c' → Edge σ a l c' ∨ (a = s ∧ l = k ∧ c' = c)) ∧
        (∀ r ks rs, Walk σ r ks rs → Walk σ' r ks rs) ∧
        ∀ r pre rs0, Walk σ r pre rs0 → lastOf r rs0 = s → ∀ qs,
          Walkable σ' r qs ↔ Walkable σ r qs ∨ qs = pre ++ [k]) := by
  rcases getAttr_cases (F := F) (E := E) hk hs with ⟨c, co, hg, hc, hn, e⟩ | ⟨hno, hrest⟩
  · have he : Edge σ s k c := ⟨o, hs, hg⟩
    obtain ⟨oc, t1, t', al, h1, h2, h3, h4, h5, h6⟩ := h.link s k c o he hs
    have := denOpt_unique hd h2
    subst this
    refine ⟨fun e' he' => (by rw [h3] at he'; cases he'), fun t2 al2 h2' => ?_⟩
    rw [h3] at h2'
    cases h2'
    refine ⟨σ, c, e, h, Ext.refl _, he, ⟨oc, h1, h4⟩, fun i oi hi => ⟨oi, hi, rfl, rfl, rfl⟩,
      fun i oi' hl hi => (by have := (List.getElem?_eq_some_iff.1 hi).1; omega), fun _ _ _ h _ => h,
      fun _ _ _ h => .inl h, fun _ _ _ h => h, ?_⟩
    intro r pre rs0 hw hl qs
    refine ⟨.inl, ?_⟩
    rintro (hq | rfl)
    · exact hq
    · exact ⟨_, walk_snoc hw (by rw [hl]; exact he)⟩
  · have hnone : dget (σ.kids o) k = none := by
      cases hg : dget (σ.kids o) k with
      | none => rfl
      | some c =>
        obtain ⟨oc, t1, t', al, h1, _, _, _, _, h6⟩ := h.link s k c o ⟨o, hs, hg⟩ hs
        exact absurd (hno c oc hg h1) h6
    have made : ∀ name pm h' t' al, Ext σ.pmods h' → descOpt E t k = .ok (t', al) → DenOpt h' pm t' →
        (∀ x, t' = some x → Within D x) → name = nameFor k al →
        getAttr F E σ s k = (madeState σ s o k name pm h', .ok (some σ.steps.length)) →
      ∃ σ' c, getAttr F E σ s k = (σ', .ok (some c)) ∧ Tidy D E σ' ∧ Ext σ.pmods σ'.pmods ∧ Edge σ' s k c ∧
        (∃ oc, σ'.steps[c]? = some oc ∧ DenOpt σ'.pmods oc.pmod t') ∧
        (∀ (i : Nat) (oi : StepObj), σ.steps[i]? = some oi → ∃ oi', σ'.steps[i]? = some oi' ∧ oi'.pmod = oi.pmod ∧
          oi'.name = oi.name ∧ oi'.tags = oi.tags) ∧
        (∀ (i : Nat) (oi' : StepObj), σ.steps.length ≤ i → σ'.steps[i]? = some oi' → oi'.tags = []) ∧
        (∀ a l c, Edge σ' a l c → c < σ.steps.length → Edge σ a l c) ∧
        (∀ a l c', Edge σ' a l c' → Edge σ a l c' ∨ (a = s ∧ l = k ∧ c' = c)) ∧
        (∀ r ks rs, Walk σ r ks rs → Walk σ' r ks rs) ∧
        ∀ r pre rs0, Walk σ r pre rs0 → lastOf r rs0 = s → ∀ qs,
          Walkable σ' r qs ↔ Walkable σ r qs ∨ qs = pre ++ [k] := by
      intro name pm h' t' al hx hdesc hd' hw hname e
      refine ⟨_, _, e, made_tidy h hs hnone hx (denOpt_ext hx hd) hdesc hd' hw hname
        (by rw [hname]; exact nameFor_ne_nil hk0 al), hx, (made_edge h hs hnone).2 (.inr ⟨rfl, rfl, rfl⟩),
        ⟨_, made_step_new, hd'⟩, ?_, ?_, ?_, fun a l c' he => (made_edge h hs hnone).1 he, fun r ks rs hw => made_walk_old h hs hnone hw,
        fun r pre rs0 h1 h2 qs => made_walkable h hs hnone h1 h2 qs⟩
      · intro i oi hi
        obtain ⟨oi', a, b, c, d, _⟩ := made_step_old (k := k) (name := name) (pm := pm) (h' := h') h hs hi
        exact ⟨oi', a, b, c, d⟩
      · intro i oi' hl hi
        rcases made_step h hs hi with ⟨_, rfl⟩ | ⟨oi, hoi, _⟩
        · rfl
        · have := (List.getElem?_eq_some_iff.1 hoi).1; omega
      · intro a l c he hlt
        rcases (made_edge h hs hnone).1 he with he | ⟨_, _, rfl⟩
        · exact he
        · omega
    cases hp : o.pmod with
    | none =>
      rw [hp] at hd
      have ht : t = none := by cases t with | none => rfl | some x => exact hd.elim
      subst ht
      refine ⟨fun e he => (by cases he), fun t' al he => ?_⟩
      cases he
      rcases hrest with ⟨e, ⟨p, hp', _⟩, _⟩ | ⟨name, pm, h', hch, e⟩
      · rw [hp] at hp'; cases hp'
      · rw [hp] at hch
        obtain ⟨h1, h2, h3⟩ := hch
        subst h1; subst h2; subst h3
        exact made name none σ.pmods none none (Ext.refl _) rfl trivial (fun x hx => by cases hx) rfl e
    | some p =>
      have hd0 := hd
      rw [hp] at hd
      obtain ⟨tt, rfl⟩ : ∃ tt, t = some tt := by
        cases t with
        | none => exact hd.elim
        | some tt => exact ⟨tt, rfl⟩
      obtain ⟨t2, hd2, hw2⟩ := h.den s o hs
      have := denOpt_unique hd0 hd2
      subst this
      obtain ⟨hA, hB⟩ := descendH_den (F := F) (E := E) hd (hw2 tt rfl) hF k
      refine ⟨fun e he => ?_, fun t' al he => ?_⟩
      · have hA' := hA e he
        rcases hrest with ⟨e2, ⟨p', hp', hde⟩, hr⟩ | ⟨name, pm, h', hch, hr⟩
        · rw [hp] at hp'; injection hp' with hp'; subst hp'
          rw [hA'] at hde; injection hde with hde; subst hde
          exact ⟨_, hr⟩
        · rw [hp] at hch
          obtain ⟨al, hch, _⟩ := hch
          rw [hA'] at hch; cases hch
      · obtain ⟨h2, p2, hB1, hB2, hB3, hB4⟩ := hB t' al he
        rcases hrest with ⟨e2, ⟨p', hp', hde⟩, hr⟩ | ⟨name, pm, h', hch, hr⟩
        · rw [hp] at hp'; injection hp' with hp'; subst hp'
          rw [hB1] at hde; cases hde
        · rw [hp] at hch
          obtain ⟨al', hch, hname⟩ := hch
          rw [hB1] at hch
          injection hch with hch
          injection hch with e1 hch
          injection hch with e2 e3
          subst e1; subst e2; subst e3
          refine made name p2 h2 t' al hB2 he hB3 hB4 ?_ hr
          rw [hname]; cases al <;> rfl

/-- The mappings along a path, from mappings or from none. -/
inductive Along (E : RegexLib) : Option Pmod → List Str → List (Option Str) → Option Pmod → Prop
  | nil (t) : Along E t [] [] t
  | cons (t t' k al ks as u) : descOpt E t k = .ok (t', al) → Along E t' ks as u → Along E t (k :: ks) (al :: as) u

theorem along_iff {E : RegexLib} {t : Option Pmod} {ks : List Str} {as : List (Option Str)} :
    AliasesAlong E t ks as ↔ ∃ u, Along E t ks as u := by
  constructor
  · intro h
    induction h with
    | nil t => exact ⟨t, .nil t⟩
    | off s ss as _ ih => obtain ⟨u, hu⟩ := ih; exact ⟨u, .cons none none s none ss as u rfl hu⟩
    | on pm pm' s a ss as hd _ ih => obtain ⟨u, hu⟩ := ih; exact ⟨u, .cons (some pm) pm' s a ss as u hd hu⟩
  · rintro ⟨u, h⟩
    induction h with
    | nil t => exact .nil t
    | cons t t' k al ks as u hd _ ih =>
      cases t with
      | none => cases hd; exact .off k ks as ih
      | some pm => exact .on pm t' k al ks as hd ih

theorem along_unique {E : RegexLib} {t : Option Pmod} {ks : List Str} {as as' : List (Option Str)} {u u' : Option Pmod}
    (h : Along E t ks as u) (h' : Along E t ks as' u') : as = as' ∧ u = u' := by
  induction h generalizing as' u' with
  | nil t => cases h'; exact ⟨rfl, rfl⟩
  | cons t t' k al ks as u hd _ ih =>
    cases h' with
    | cons _ t2 _ al2 _ as2 _ hd2 h2 =>
      rw [hd] at hd2
      cases hd2
      obtain ⟨e1, e2⟩ := ih h2
      exact ⟨by rw [e1], e2⟩

/-- The texts met on a walk are those that the mappings give. -/
theorem walk_names {D : Nat} {E : RegexLib} {σ : PsState} (h : Tidy D E σ) {s : Nat} {ks : List Str} {rs : List Nat}
    (hw : Walk σ s ks rs) : ∀ {o : StepObj} {t : Option Pmod}, σ.steps[s]? = some o → DenOpt σ.pmods o.pmod t →
    ∃ as u, Along E t ks as u ∧ σ.names rs = namesFor ks as := by
  induction hw with
  | nil s => intro o t _ _; exact ⟨[], t, .nil t, rfl⟩
  | cons s k c ks rs he hw ih =>
    intro o t ho hd
    obtain ⟨oc, t1, t', al, h1, h2, h3, h4, h5, h6⟩ := h.link s k c o he ho
    have := denOpt_unique hd h2
    subst this
    obtain ⟨as, u, hal, hn⟩ := ih h1 h4
    refine ⟨al :: as, u, .cons t t' k al ks as u h3 hal, ?_⟩
    simp only [PsState.names, List.map_cons, h1, h5, namesFor] at hn ⊢
    rw [hn]

/-- Names of attributes that are steps. -/
def ReadNames (p : List Str) : Prop := ∀ k ∈ p, StepName k ∧ k ≠ []

theorem getPath_tidy {D F : Nat} {E : RegexLib} (hF : D ≤ F) {r : Nat} (p : List Str) :
    ∀ {σ : PsState} {s : Nat} {o : StepObj} {t : Option Pmod}, Tidy D E σ → ReadNames p → σ.steps[s]? = some o →
    DenOpt σ.pmods o.pmod t → ∀ {pre : List Str} {rs0 : List Nat}, Walk σ r pre rs0 → lastOf r rs0 = s →
    ((∃ as u, Along E t p as u) → ∃ σ' refs, getPath F E σ s p = (σ', .ok refs)) ∧
    ∀ {σ' : PsState} {refs : List Nat}, getPath F E σ s p = (σ', .ok refs) →
      Tidy D E σ' ∧ Ext σ.pmods σ'.pmods ∧
      (∀ (i : Nat) (oi : StepObj), σ.steps[i]? = some oi → ∃ oi', σ'.steps[i]? = some oi' ∧ oi'.pmod = oi.pmod ∧
          oi'.name = oi.name ∧ oi'.tags = oi.tags) ∧
        (∀ (i : Nat) (oi' : StepObj), σ.steps.length ≤ i → σ'.steps[i]? = some oi' → oi'.tags = []) ∧
        (∀ a l c, Edge σ' a l c → c < σ.steps.length → Edge σ a l c) ∧
      Walk σ' r (pre ++ p) (rs0 ++ refs) ∧ (∀ r' ks rs, Walk σ r' ks rs → Walk σ' r' ks rs) ∧
      (∀ a l c, Edge σ' a l c → σ.steps.length ≤ c → ∃ ks rs, Walk σ' r ks rs ∧ lastOf r rs = c) ∧
      ∀ qs, Walkable σ' r qs ↔ Walkable σ r qs ∨ ∃ p', p' <+: p ∧ qs = pre ++ p' := by
  induction p with
  | nil =>
    intro σ s o t h _ hs hd pre rs0 hw hl
    refine ⟨fun _ => ⟨σ, [], rfl⟩, fun {σ' refs} e => ?_⟩
    simp only [getPath] at e
    cases e
    refine ⟨h, Ext.refl _, fun i oi hi => ⟨oi, hi, rfl, rfl, rfl⟩,
      fun i oi' hl hi => (by have := (List.getElem?_eq_some_iff.1 hi).1; omega), fun _ _ _ h _ => h, by simpa using hw, fun _ _ _ h => h,
      fun a l c he hlt => (by have := (h.up a l c he).2; omega), fun qs => ⟨.inl, ?_⟩⟩
    rintro (hq | ⟨p', hp, rfl⟩)
    · exact hq
    · rw [List.prefix_nil] at hp; subst hp
      rw [List.append_nil]; exact ⟨rs0, hw⟩
  | cons k p ih =>
    intro σ s o t h hn hs hd pre rs0 hw hl
    have hk := hn k (by simp)
    obtain ⟨hE, hO⟩ := getAttr_tidy h hF hk.1 hk.2 hs hd
    cases hdesc : descOpt E t k with
    | error e =>
      obtain ⟨σ1, h1⟩ := hE e hdesc
      refine ⟨?_, fun {σ' refs} e' => ?_⟩
      · rintro ⟨as, u, hal⟩
        cases hal with
        | cons _ t' _ al _ as _ hd' _ => rw [hdesc] at hd'; cases hd'
      · simp only [getPath, h1] at e'; cases e'
    | ok ta =>
      obtain ⟨t', al⟩ := ta
      obtain ⟨σ1, c, h1, hT, hx, hedge, ⟨oc, hoc, hdc⟩, hold, hnew, hedg, hone, hws, hwk⟩ := hO t' al hdesc
      have hw1 := walk_snoc (hws r pre rs0 hw) (by rw [hl]; exact hedge)
      obtain ⟨i1, i2⟩ := ih (σ := σ1) (s := c) hT (fun k hk => hn k (by simp [hk])) hoc hdc hw1 (lastOf_snoc ..)
      constructor
      · rintro ⟨as, u, hal⟩
        cases hal with
        | cons _ t2 _ al2 _ as _ hd' hal' =>
          rw [hdesc] at hd'
          cases hd'
          obtain ⟨σ', refs, hg⟩ := i1 ⟨as, u, hal'⟩
          exact ⟨σ', c :: refs, by simp only [getPath, h1, hg]⟩
      · intro σ' refs e
        simp only [getPath, h1] at e
        cases hg : getPath F E σ1 c p with
        | mk σ2 res =>
          rw [hg] at e
          cases res with
          | error e' => cases e
          | ok rs =>
            cases e
            obtain ⟨j1, j2, j3, jn, je, jw, jk, jx, j4⟩ := i2 hg
            refine ⟨j1, hx.trans j2, fun i oi hi => ?_, fun i oi' hl hi => ?_, fun a l c he hlt => ?_, by simpa using jw,
              fun r' ks rs h => jk r' ks rs (hws r' ks rs h), fun a l c he hge => ?_, fun qs => ?_⟩
            · obtain ⟨oi1, a1, a2, a3, a4⟩ := hold i oi hi
              obtain ⟨oi2, b1, b2, b3, b4⟩ := j3 i oi1 a1
              exact ⟨oi2, b1, b2.trans a2, b3.trans a3, b4.trans a4⟩
            · rcases Nat.lt_or_ge i σ1.steps.length with hlt | hge
              · have h1' := List.getElem?_eq_getElem hlt
                obtain ⟨oi2, b1, _, _, b4⟩ := j3 i _ h1'
                rw [hi] at b1; injection b1 with b1; subst b1
                rw [b4]; exact hnew i _ hl h1'
              · exact jn i oi' hge hi
            · refine hedg a l c (je a l c he ?_) hlt
              obtain ⟨oc1, e1, _⟩ := hold c _ (List.getElem?_eq_getElem hlt)
              exact (List.getElem?_eq_some_iff.1 e1).1
            · rcases Nat.lt_or_ge c σ1.steps.length with hlt | hge'
              · have he1 := je a l c he hlt
                rcases hone a l c he1 with he0 | ⟨rfl, rfl, rfl⟩
                · have := (h.up a l c he0).2; omega
                · exact ⟨_, _, jk _ _ _ hw1, lastOf_snoc ..⟩
              · exact jx a l c he hge'
            · rw [j4 qs, hwk r pre rs0 hw hl qs]
              constructor
              · rintro ((hq | rfl) | ⟨p', hp, rfl⟩)
                · exact .inl hq
                · exact .inr ⟨[k], by simp, rfl⟩
                · exact .inr ⟨k :: p', by rw [List.cons_prefix_cons]; exact ⟨rfl, hp⟩, by simp⟩
              · rintro (hq | ⟨p', hp, rfl⟩)
                · exact .inl (.inl hq)
                · cases p' with
                  | nil => exact .inl (.inl ⟨rs0, by rw [List.append_nil]; exact hw⟩)
                  | cons k' p' =>
                    rw [List.cons_prefix_cons] at hp
                    obtain ⟨rfl, hp⟩ := hp
                    exact .inr ⟨p', hp, by simp⟩

theorem readPaths_tidy {D F : Nat} {E : RegexLib} (hF : D ≤ F) {r : Nat} (paths : List (List Str)) :
    ∀ {σ : PsState} {o : StepObj} {t : Option Pmod}, Tidy D E σ → (∀ p ∈ paths, ReadNames p) → σ.steps[r]? = some o →
    DenOpt σ.pmods o.pmod t →
    ((∀ p ∈ paths, ∃ as u, Along E t p as u) → ∃ σ', readPaths F E σ r paths = .ok σ') ∧
    ∀ {σ' : PsState}, readPaths F E σ r paths = .ok σ' →
      Tidy D E σ' ∧ (∃ o', σ'.steps[r]? = some o' ∧ DenOpt σ'.pmods o'.pmod t ∧ o'.name = o.name) ∧
      ∀ qs, Walkable σ' r qs ↔ Walkable σ r qs ∨ ∃ p ∈ paths, qs <+: p := by
  induction paths with
  | nil =>
    intro σ o t h _ hs hd
    refine ⟨fun _ => ⟨σ, rfl⟩, fun {σ'} e => ?_⟩
    cases e
    exact ⟨h, ⟨o, hs, hd, rfl⟩, fun qs => by simp⟩
  | cons p paths ih =>
    intro σ o t h hn hs hd
    obtain ⟨g1, g2⟩ := getPath_tidy (F := F) (E := E) hF (r := r) p h (hn p (by simp)) hs hd (.nil r) rfl
    have step : ∀ {σ1 : PsState} {refs : List Nat}, getPath F E σ r p = (σ1, .ok refs) → _ := fun {σ1 refs} hg => (g2 hg)
    constructor
    · intro hall
      obtain ⟨σ1, refs, hg⟩ := g1 (hall p (by simp))
      obtain ⟨j1, j2, j3, _, _, _, _, _, j4⟩ := g2 hg
      obtain ⟨o1, a1, a2, a3, _⟩ := j3 r o hs
      obtain ⟨i1, _⟩ := ih j1 (fun q hq => hn q (by simp [hq])) a1 (by rw [a2]; exact denOpt_ext j2 hd)
      obtain ⟨σ', h'⟩ := i1 (fun q hq => hall q (by simp [hq]))
      exact ⟨σ', by simp only [readPaths, hg]; exact h'⟩
    · intro σ' e
      simp only [readPaths] at e
      cases hg : getPath F E σ r p with
      | mk σ1 res =>
        rw [hg] at e
        cases res with
        | error e' => cases e
        | ok refs =>
          simp only at e
          obtain ⟨j1, j2, j3, _, _, _, _, _, j4⟩ := g2 hg
          obtain ⟨o1, a1, a2, a3, _⟩ := j3 r o hs
          obtain ⟨_, i2⟩ := ih j1 (fun q hq => hn q (by simp [hq])) a1 (by rw [a2]; exact denOpt_ext j2 hd)
          obtain ⟨k1, ⟨o2, b1, b2, b3⟩, k3⟩ := i2 e
          refine ⟨k1, ⟨o2, b1, b2, b3.trans a3⟩, fun qs => ?_⟩
          rw [k3 qs, j4 qs]
          constructor
          · rintro ((hq | ⟨p', hp, rfl⟩) | ⟨q, hq, hp⟩)
            · exact .inl hq
            · exact .inr ⟨p, by simp, hp⟩
            · exact .inr ⟨q, by simp [hq], hp⟩
          · rintro (hq | ⟨q, hq, hp⟩)
            · exact .inl (.inl hq)
            · rcases List.mem_cons.1 hq with rfl | hq
              · exact .inl (.inr ⟨qs, hp, rfl⟩)
              · exact .inr ⟨q, hq, hp⟩

/-! ### Going through the tree -/

theorem iterKids_some {it : Nat → Option (List (List Nat))} (l : List (Str × Nat))
    (h : ∀ kc ∈ l, ∃ bs, it kc.2 = some bs) :
    ∃ bs, iterKids it l = some bs ∧ ∀ b, b ∈ bs ↔ ∃ kc ∈ l, ∃ x, it kc.2 = some x ∧ b ∈ x := by
  induction l with
  | nil => exact ⟨[], rfl, by simp⟩
  | cons kc l ih =>
    obtain ⟨k, c⟩ := kc
    obtain ⟨x, hx⟩ := h (k, c) (by simp)
    obtain ⟨y, hy, hy2⟩ := ih (fun kc hkc => h kc (by simp [hkc]))
    simp only at hx
    refine ⟨x ++ y, by simp only [iterKids, hx, hy], fun b => ?_⟩
    rw [List.mem_append, hy2 b]
    constructor
    · rintro (hb | ⟨kc, h1, h2⟩)
      · exact ⟨(k, c), by simp, x, hx, hb⟩
      · exact ⟨kc, by simp [h1], h2⟩
    · rintro ⟨kc, h1, z, h2, h3⟩
      rcases List.mem_cons.1 h1 with rfl | h1
      · simp only at h2; rw [hx] at h2; cases h2; exact .inl h3
      · exact .inr ⟨kc, h1, z, h2, h3⟩

/-- Going through the tree gives the walks, if the recursion limit is above their lengths. -/
theorem iterHier_walks' {σ : PsState}
    (hkeys : ∀ (i : Nat) (o : StepObj), σ.steps[i]? = some o → (dkeys (σ.kids o)).Nodup)
    (hrange : ∀ s k c, Edge σ s k c → c < σ.steps.length) : ∀ (F : Nat) (pre : List Nat) (s : Nat),
    s < σ.steps.length → (∀ ks rs, Walk σ s ks rs → ks.length < F) →
    ∃ bs, iterHier σ F pre s = some bs ∧ ∀ b, b ∈ bs ↔ ∃ ks rs, Walk σ s ks rs ∧ b = pre ++ s :: rs := by
  intro F
  induction F with
  | zero => intro pre s _ hl; exact absurd (hl [] [] (.nil s)) (by simp)
  | succ F ih =>
    intro pre s hlt hl
    have hs := List.getElem?_eq_getElem hlt
    generalize σ.steps[s] = o at hs
    have hkid : ∀ kc ∈ σ.kids o, Edge σ s kc.1 kc.2 := fun kc hkc =>
      ⟨o, hs, dget_of_mem (hkeys s o hs) hkc⟩
    have hsub : ∀ kc ∈ σ.kids o, ∃ bs, iterHier σ F (pre ++ [s]) kc.2 = some bs ∧
        ∀ b, b ∈ bs ↔ ∃ ks rs, Walk σ kc.2 ks rs ∧ b = (pre ++ [s]) ++ kc.2 :: rs := by
      intro kc hkc
      refine ih (pre ++ [s]) kc.2 (hrange s kc.1 kc.2 (hkid kc hkc)) (fun ks rs hw => ?_)
      have := hl (kc.1 :: ks) (kc.2 :: rs) (.cons s kc.1 kc.2 ks rs (hkid kc hkc) hw)
      simp only [List.length_cons] at this
      omega
    obtain ⟨bs, hb1, hb2⟩ := iterKids_some (it := iterHier σ F (pre ++ [s])) (σ.kids o)
      (fun kc hkc => by obtain ⟨bs, h1, _⟩ := hsub kc hkc; exact ⟨bs, h1⟩)
    refine ⟨(pre ++ [s]) :: bs, by simp only [iterHier, hs, hb1, Option.map_some], fun b => ?_⟩
    rw [List.mem_cons, hb2 b]
    constructor
    · rintro (rfl | ⟨kc, h1, x, h2, h3⟩)
      · exact ⟨[], [], .nil s, rfl⟩
      · obtain ⟨x', e1, e2⟩ := hsub kc h1
        rw [h2] at e1; injection e1 with e1; subst e1
        obtain ⟨ks, rs, hw, rfl⟩ := (e2 b).1 h3
        exact ⟨kc.1 :: ks, kc.2 :: rs, .cons s _ _ ks rs (hkid kc h1) hw, by simp⟩
    · rintro ⟨ks, rs, hw, rfl⟩
      cases hw with
      | nil => exact .inl rfl
      | cons _ k c ks rs he hw =>
        right
        obtain ⟨o', ho', hg⟩ := he
        rw [hs] at ho'; injection ho' with ho'; subst ho'
        have hmem := mem_of_dget hg
        obtain ⟨x, e1, e2⟩ := hsub (k, c) hmem
        exact ⟨(k, c), hmem, x, e1, (e2 _).2 ⟨ks, rs, hw, by simp⟩⟩

theorem iterHier_walks {D : Nat} {E : RegexLib} {σ : PsState} (h : Tidy D E σ) (F : Nat) (pre : List Nat) (s : Nat) :
    s < σ.steps.length → (∀ ks rs, Walk σ s ks rs → ks.length < F) →
    ∃ bs, iterHier σ F pre s = some bs ∧ ∀ b, b ∈ bs ↔ ∃ ks rs, Walk σ s ks rs ∧ b = pre ++ s :: rs :=
  iterHier_walks' h.keys (fun s k c he => (h.up s k c he).2) F pre s

/-! ### Sorting -/

theorem strLt_irrefl : ∀ x : Str, strLt x x = false
  | [] => rfl
  | a :: s => by simp [strLt, strLt_irrefl s]

theorem strLt_trans : ∀ {x y z : Str}, strLt x y = true → strLt y z = true → strLt x z = true
  | _, [], _, h, _ => by simp [strLt] at h
  | _, _ :: _, [], _, h => by simp [strLt] at h
  | [], _ :: _, _ :: _, _, _ => rfl
  | a :: s, b :: t, c :: u, h1, h2 => by
    simp only [strLt, Bool.or_eq_true, Bool.and_eq_true, decide_eq_true_eq, beq_iff_eq] at h1 h2 ⊢
    rcases h1 with h1 | ⟨h1, h1'⟩
    · rcases h2 with h2 | ⟨h2, _⟩
      · left; omega
      · left; omega
    · rcases h2 with h2 | ⟨h2, h2'⟩
      · left; omega
      · right; exact ⟨by omega, strLt_trans h1' h2'⟩

theorem strLt_total : ∀ {x y : Str}, strLt x y = false → x ≠ y → strLt y x = true
  | [], [], _, h => absurd rfl h
  | [], _ :: _, h, _ => by simp [strLt] at h
  | _ :: _, [], _, _ => rfl
  | a :: s, b :: t, h, hne => by
    simp only [strLt, Bool.or_eq_false_iff, Bool.and_eq_false_iff, decide_eq_false_iff_not, beq_eq_false_iff_ne,
      Bool.or_eq_true, Bool.and_eq_true, decide_eq_true_eq, beq_iff_eq] at h ⊢
    obtain ⟨h1, h2⟩ := h
    by_cases e : a.toNat = b.toNat
    · right
      refine ⟨e.symm, strLt_total ?_ ?_⟩
      · rcases h2 with h2 | h2
        · exact absurd e h2
        · exact h2
      · intro e2
        apply hne
        rw [e2, show a = b from Char.ext (UInt32.toNat_inj.1 e)]
    · left; omega

theorem strLt_iff : ∀ {x y : Str}, strLt x y = true ↔ TextBefore x y
  | x, [] => by
    refine ⟨fun h => by simp [strLt] at h, ?_⟩
    rintro (⟨c, t, h⟩ | ⟨p, a, s, b, t, _, h, _⟩) <;> simp at h
  | [], b :: t => ⟨fun _ => .inl ⟨b, t, rfl⟩, fun _ => rfl⟩
  | a :: s, b :: t => by
    simp only [strLt, Bool.or_eq_true, Bool.and_eq_true, decide_eq_true_eq, beq_iff_eq]
    constructor
    · rintro (h | ⟨h, h'⟩)
      · exact .inr ⟨[], a, s, b, t, rfl, rfl, h⟩
      · have e : a = b := Char.ext (UInt32.toNat_inj.1 h)
        subst e
        rcases strLt_iff.1 h' with ⟨c, u, rfl⟩ | ⟨p, x, s', y, t', rfl, rfl, hlt⟩
        · exact .inl ⟨c, u, rfl⟩
        · exact .inr ⟨a :: p, x, s', y, t', rfl, rfl, hlt⟩
    · rintro (⟨c, u, h⟩ | ⟨p, x, s', y, t', h1, h2, hlt⟩)
      · simp only [List.cons_append, List.cons.injEq] at h
        obtain ⟨rfl, h⟩ := h
        exact .inr ⟨rfl, strLt_iff.2 (.inl ⟨c, u, h⟩)⟩
      · cases p with
        | nil =>
          simp only [List.nil_append, List.cons.injEq] at h1 h2
          rw [h1.1, h2.1]; exact .inl hlt
        | cons z p =>
          simp only [List.cons_append, List.cons.injEq] at h1 h2
          refine .inr ⟨by rw [h1.1, h2.1], strLt_iff.2 (.inr ⟨p, x, s', y, t', h1.2, h2.2, hlt⟩)⟩

theorem strictlySorted_iff {l : List Str} : StrictlySorted l ↔ l.Pairwise (fun x y => strLt x y = true) := by
  unfold StrictlySorted
  constructor
  · exact List.Pairwise.imp strLt_iff.2
  · exact List.Pairwise.imp strLt_iff.1

theorem mem_insertStr {x y : Str} {l : List Str} : y ∈ insertStr x l ↔ y = x ∨ y ∈ l := by
  induction l with
  | nil => simp [insertStr]
  | cons z l ih =>
    rw [insertStr]
    split
    · simp
    · split
      · next e => subst e; simp
      · simp only [List.mem_cons, ih]
        constructor
        · rintro (h | h | h) <;> simp [h]
        · rintro (h | h | h) <;> simp [h]

theorem sorted_insertStr {x : Str} {l : List Str} (h : StrictlySorted l) : StrictlySorted (insertStr x l) := by
  rw [strictlySorted_iff] at h ⊢
  induction l with
  | nil => simp [insertStr]
  | cons z l ih =>
    have h' := h
    rw [List.pairwise_cons] at h'
    rw [insertStr]
    split
    · next hlt =>
      rw [List.pairwise_cons]
      refine ⟨fun y hy => ?_, h⟩
      rcases List.mem_cons.1 hy with rfl | hy
      · exact hlt
      · exact strLt_trans hlt (h'.1 y hy)
    · next hlt =>
      split
      · exact h
      · next hne =>
        rw [List.pairwise_cons]
        refine ⟨fun y hy => ?_, ih h'.2⟩
        rcases mem_insertStr.1 hy with rfl | hy
        · exact strLt_total (by simpa using hlt) hne
        · exact h'.1 y hy

theorem sortedSet_spec (l : List Str) : StrictlySorted (sortedSet l) ∧ ∀ x, x ∈ sortedSet l ↔ x ∈ l := by
  induction l with
  | nil => exact ⟨List.Pairwise.nil, fun x => Iff.rfl⟩
  | cons y l ih =>
    refine ⟨sorted_insertStr ih.1, fun x => ?_⟩
    show x ∈ insertStr y (sortedSet l) ↔ _
    rw [mem_insertStr, ih.2 x, List.mem_cons]

/-! ### The paths -/

/-- The paths reported, in terms of the texts that the mappings give, when what can be walked is what was read. -/
theorem paths_walked {D F : Nat} {E : RegexLib} {r : Nat} {paths : List (List Str)} {σ' : PsState}
    {o' : StepObj} {n0 : Str} {t : Option Pmod} (hT : Tidy D E σ') (ho' : σ'.steps[r]? = some o')
    (hd' : DenOpt σ'.pmods o'.pmod t) (hname : o'.name = n0)
    (hW' : ∀ qs, Walkable σ' r qs ↔ qs = [] ∨ ∃ p ∈ paths, qs <+: p)
    (hlen : ∀ p ∈ [] :: paths, p.length < F) :
    ∃ l, pstepPaths F σ' r none = .ok l ∧ StrictlySorted l ∧
      (∀ x, x ∈ l ↔ ∃ p as u, Maximal paths p ∧ Along E t p as u ∧ x = joinPaths (n0 :: namesFor p as)) ∧
      ∀ p, Maximal paths p → ∃ as u, Along E t p as u := by
  have hlt := (List.getElem?_eq_some_iff.1 ho').1
  obtain ⟨bs, hb1, hb2⟩ := iterHier_walks hT F [] r hlt (by
    intro ks rs hw
    rcases (hW' ks).1 ⟨rs, hw⟩ with rfl | ⟨p, hp, hpre⟩
    · exact hlen [] (by simp)
    · have := hlen p (by simp [hp])
      have := hpre.length_le
      omega)
  obtain ⟨hsort, hmem⟩ := sortedSet_spec ((bs.filter (reported σ' none)).map (fun b => joinPaths (σ'.names b)))
  refine ⟨_, by simp only [pstepPaths, hb1], hsort, fun x => ?_, ?_⟩
  case refine_2 =>
    intro p hp
    have hwk : Walkable σ' r p := by
      rw [hW']
      rcases List.mem_cons.1 hp.1 with rfl | hp
      · exact .inl rfl
      · exact .inr ⟨p, hp, List.prefix_refl p⟩
    obtain ⟨rs, hw⟩ := hwk
    obtain ⟨as, u, h1, _⟩ := walk_names hT hw ho' hd'
    exact ⟨as, u, h1⟩
  rw [hmem x, List.mem_map]
  have hrep : ∀ ks rs, Walk σ' r ks rs → (reported σ' none (r :: rs) = true ↔ Maximal paths ks) := by
    intro ks rs hw
    have hl := walk_lt hT hw hlt
    have hgl : (r :: rs).getLast? = some (lastOf r rs) := List.getLast?_eq_some_getLast (by simp)
    have hol := List.getElem?_eq_getElem hl
    generalize σ'.steps[lastOf r rs] = ol at hol
    have h1 : reported σ' none (r :: rs) = (σ'.kids ol).isEmpty := by
      simp only [reported, hgl, Option.bind_some, hol]
    rw [h1]
    have h3 : (σ'.kids ol).isEmpty = true ↔ ∀ k, ¬ Walkable σ' r (ks ++ [k]) := by
      constructor
      · rintro he k ⟨rs', hw'⟩
        obtain ⟨rs0, c, rfl, a1, a2⟩ := walk_snoc_inv hw'
        have := walk_unique hw a1
        subst this
        obtain ⟨ox, b1, b2⟩ := a2
        rw [hol] at b1; injection b1 with b1; subst b1
        rw [List.isEmpty_iff.1 he] at b2; cases b2
      · intro hk
        cases hkids : σ'.kids ol with
        | nil => rfl
        | cons kc rest =>
          exfalso
          obtain ⟨k, c⟩ := kc
          apply hk k
          exact ⟨_, walk_snoc (c := c) hw ⟨ol, hol, by rw [hkids, dget_cons]; simp⟩⟩
    rw [h3]
    constructor
    · intro hno
      have hmax : ∀ q ∈ paths, ks <+: q → q = ks := by
        rintro q hq ⟨e, rfl⟩
        cases e with
        | nil => simp
        | cons k e =>
          exfalso
          apply hno k
          rw [hW']
          exact .inr ⟨_, hq, ⟨e, by simp⟩⟩
      refine ⟨?_, hmax⟩
      rcases (hW' ks).1 ⟨rs, hw⟩ with rfl | ⟨p, hp, hpre⟩
      · simp
      · rw [← hmax p hp hpre]; simp [hp]
    · rintro ⟨_, hmax⟩ k hk
      rcases (hW' _).1 hk with e | ⟨p, hp, hpre⟩
      · simp at e
      · have := hmax p hp (List.IsPrefix.trans (List.prefix_append ks [k]) hpre)
        rw [this] at hpre
        have := hpre.length_le
        rw [List.length_append, List.length_singleton] at this
        omega
  have htext : ∀ ks rs, Walk σ' r ks rs → ∃ as u, Along E t ks as u ∧ σ'.names (r :: rs) = n0 :: namesFor ks as := by
    intro ks rs hw
    obtain ⟨as, u, h1, h2⟩ := walk_names hT hw ho' hd'
    refine ⟨as, u, h1, ?_⟩
    rw [← h2, ← hname]
    simp only [PsState.names, List.map_cons, ho']
  constructor
  · rintro ⟨b, hb, rfl⟩
    rw [List.mem_filter] at hb
    obtain ⟨ks, rs, hw, rfl⟩ := (hb2 b).1 hb.1
    rw [List.nil_append] at hb ⊢
    obtain ⟨as, u, h1, h2⟩ := htext ks rs hw
    exact ⟨ks, as, u, (hrep ks rs hw).1 hb.2, h1, by rw [h2]⟩
  · rintro ⟨p, as, u, hmax, hal, rfl⟩
    have hwk : Walkable σ' r p := by
      rw [hW']
      rcases List.mem_cons.1 hmax.1 with rfl | hp
      · exact .inl rfl
      · exact .inr ⟨p, hp, List.prefix_refl p⟩
    obtain ⟨rs, hw⟩ := hwk
    obtain ⟨as', u', h1, h2⟩ := htext p rs hw
    obtain ⟨e1, _⟩ := along_unique hal h1
    subst e1
    refine ⟨r :: rs, List.mem_filter.2 ⟨(hb2 _).2 ⟨p, rs, hw, by simp⟩, (hrep p rs hw).2 hmax⟩, by rw [h2]⟩

/-- The paths reported after reading, in terms of the texts that the mappings give. -/
theorem paths_read {D F : Nat} {E : RegexLib} (hF : D ≤ F) {r : Nat} {paths : List (List Str)} {σ σ' : PsState}
    {o : StepObj} {t : Option Pmod} (h : Tidy D E σ) (hn : ∀ p ∈ paths, ReadNames p) (hs : σ.steps[r]? = some o)
    (hd : DenOpt σ.pmods o.pmod t) (hfresh : ∀ ks, Walkable σ r ks → ks = [])
    (hlen : ∀ p ∈ [] :: paths, p.length < F) (e : readPaths F E σ r paths = .ok σ') :
    ∃ l, pstepPaths F σ' r none = .ok l ∧ StrictlySorted l ∧
      (∀ x, x ∈ l ↔ ∃ p as u, Maximal paths p ∧ Along E t p as u ∧ x = joinPaths (o.name :: namesFor p as)) ∧
      ∀ p, Maximal paths p → ∃ as u, Along E t p as u := by
  obtain ⟨_, h2⟩ := readPaths_tidy hF paths h hn hs hd
  obtain ⟨hT, ⟨o', ho', hd', hname⟩, hW⟩ := h2 e
  have hW' : ∀ qs, Walkable σ' r qs ↔ qs = [] ∨ ∃ p ∈ paths, qs <+: p := by
    intro qs
    rw [hW qs]
    constructor
    · rintro (h | h)
      · exact .inl (hfresh qs h)
      · exact .inr h
    · rintro (rfl | h)
      · exact .inl ⟨[], .nil r⟩
      · exact .inr h
  exact paths_walked hT ho' hd' hname hW' hlen

end Lemmas
