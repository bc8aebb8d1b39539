import Verif.Spec.Lasso
import Verif.Lemmas.Dict
import Verif.Lemmas.List
set_option linter.unusedSimpArgs false
/-
Lemmas about `dive`.
-/
namespace Lemmas
open Py Model Spec

section
variable {σ : Type} {cfg : DiveCfg} {step : σ → Option Coords → Doc → Except PyErr (Option Doc × σ)}

/-- The state keeps a property. -/
def Keeps (step : σ → Option Coords → Doc → Except PyErr (Option Doc × σ)) (I : σ → Prop) : Prop :=
  ∀ s bc d o s', I s → step s bc d = .ok (o, s') → I s'

variable {I : σ → Prop}

theorem diveLeaf_inv (hI : Keeps step I) (c : Nat) (bc : Option Coords) (s : σ) (d r : Doc) (s' : σ)
    (hs : I s) (h : diveLeaf cfg step c bc s d = .ok (r, s')) : I s' := by
  unfold diveLeaf at h
  split at h
  · simp at h; exact h.2 ▸ hs
  · cases h1 : step s bc d with
    | error e => rw [h1] at h; simp at h
    | ok p =>
      obtain ⟨o, s1⟩ := p
      have := hI _ _ _ _ _ hs h1
      rw [h1] at h
      cases o <;> simp at h <;> exact h.2 ▸ this

mutual
theorem dive_inv (hI : Keeps step I) (c : Nat) (bc : Option Coords) (s : σ) (d r : Doc) (s' : σ)
    (hs : I s) (h : dive cfg step c bc s d = .ok (r, s')) : I s' := by
  cases d with
  | dict kvs =>
    unfold dive at h
    split at h
    · simp at h; exact h.2 ▸ hs
    · cases h1 : diveItems cfg step c s kvs with
      | error e => rw [h1] at h; simp at h
      | ok p =>
        obtain ⟨o, s1⟩ := p
        have := diveItems_inv hI c s kvs o s1 hs h1
        rw [h1] at h
        simp at h; exact h.2 ▸ this
  | list xs =>
    unfold dive at h
    split at h
    · simp at h; exact h.2 ▸ hs
    · cases h1 : step s bc (.list xs) with
      | error e => rw [h1] at h; simp at h
      | ok p =>
        obtain ⟨o, s1⟩ := p
        have hs1 := hI _ _ _ _ _ hs h1
        rw [h1] at h
        cases o with
        | some y => simp at h; exact h.2 ▸ hs1
        | none =>
          simp only at h
          cases h2 : diveList cfg step c bc 0 s1 xs with
          | error e => rw [h2] at h; simp at h
          | ok p =>
            obtain ⟨o, s2⟩ := p
            have := diveList_inv hI c bc 0 s1 xs o s2 hs1 h2
            rw [h2] at h
            simp at h; exact h.2 ▸ this
  | null => exact diveLeaf_inv hI c bc s _ r s' hs (by simpa [dive] using h)
  | bool b => exact diveLeaf_inv hI c bc s _ r s' hs (by simpa [dive] using h)
  | int b => exact diveLeaf_inv hI c bc s _ r s' hs (by simpa [dive] using h)
  | atom b => exact diveLeaf_inv hI c bc s _ r s' hs (by simpa [dive] using h)
  | str b => exact diveLeaf_inv hI c bc s _ r s' hs (by simpa [dive] using h)

theorem diveList_inv (hI : Keeps step I) (c : Nat) (bc : Option Coords) (i : Nat) (s : σ) (xs ys : List Doc)
    (s' : σ) (hs : I s) (h : diveList cfg step c bc i s xs = .ok (ys, s')) : I s' := by
  cases xs with
  | nil => simp [diveList] at h; exact h.2 ▸ hs
  | cons x xs =>
    unfold diveList at h
    cases h1 : dive cfg step (c + 1) (updBase cfg.pandas c bc i) s x with
    | error e => rw [h1] at h; simp at h
    | ok p =>
      obtain ⟨o, s1⟩ := p
      have hs1 := dive_inv hI _ _ s x o s1 hs h1
      rw [h1] at h; simp only at h
      cases h2 : diveList cfg step c bc (i + 1) s1 xs with
      | error e => rw [h2] at h; simp at h
      | ok p =>
        obtain ⟨o, s2⟩ := p
        have := diveList_inv hI c bc (i + 1) s1 xs o s2 hs1 h2
        rw [h2] at h
        simp at h; exact h.2 ▸ this

theorem diveItems_inv (hI : Keeps step I) (c : Nat) (s : σ) (kvs kvs' : List (Str × Doc)) (s' : σ) (hs : I s)
    (h : diveItems cfg step c s kvs = .ok (kvs', s')) : I s' := by
  cases kvs with
  | nil => simp [diveItems] at h; exact h.2 ▸ hs
  | cons q kvs =>
    obtain ⟨k, x⟩ := q
    unfold diveItems at h
    split at h
    · cases h1 : dive cfg step (c + 1) none s x with
      | error e => rw [h1] at h; simp at h
      | ok p =>
        obtain ⟨o, s1⟩ := p
        have hs1 := dive_inv hI _ _ s x o s1 hs h1
        rw [h1] at h; simp only at h
        cases h2 : diveItems cfg step c s1 kvs with
        | error e => rw [h2] at h; simp at h
        | ok p =>
          obtain ⟨o, s2⟩ := p
          have := diveItems_inv hI c s1 kvs o s2 hs1 h2
          rw [h2] at h
          simp at h; exact h.2 ▸ this
    · cases h2 : diveItems cfg step c s kvs with
      | error e => rw [h2] at h; simp at h
      | ok p =>
        obtain ⟨o, s2⟩ := p
        have := diveItems_inv hI c s kvs o s2 hs h2
        rw [h2] at h
        simp at h; exact h.2 ▸ this
end

theorem diveList_ok (hI : Keeps step I) {c : Nat} {bc : Option Coords} (xs : List Doc) {i : Nat} {s s' : σ} {ys : List Doc}
    (hs : I s) (h : diveList cfg step c bc i s xs = .ok (ys, s')) :
    xs.length = ys.length ∧ ∀ j x, xs[j]? = some x → ∃ s1 s2 y, I s1 ∧
      dive cfg step (c + 1) (updBase cfg.pandas c bc (i + j)) s1 x = .ok (y, s2) ∧ ys[j]? = some y := by
  induction xs generalizing i s ys with
  | nil => simp [diveList] at h; obtain ⟨rfl, rfl⟩ := h; simp
  | cons x xs ih =>
    unfold diveList at h
    cases h1 : dive cfg step (c + 1) (updBase cfg.pandas c bc i) s x with
    | error e => rw [h1] at h; simp at h
    | ok r =>
      obtain ⟨y, s1⟩ := r
      rw [h1] at h; simp only at h
      cases h2 : diveList cfg step c bc (i + 1) s1 xs with
      | error e => rw [h2] at h; simp at h
      | ok r =>
        obtain ⟨ys', s2⟩ := r
        rw [h2] at h; simp only [Except.ok.injEq, Prod.mk.injEq] at h
        obtain ⟨rfl, rfl⟩ := h
        obtain ⟨hl, hj⟩ := ih (dive_inv hI _ _ _ _ _ _ hs h1) h2
        refine ⟨by simp [hl], ?_⟩
        intro j x' hx
        cases j with
        | zero => simp at hx; subst hx; exact ⟨s, s1, y, hs, h1, rfl⟩
        | succ j =>
          simp at hx
          obtain ⟨a, b, z, ha, hz, hy⟩ := hj j x' hx
          exact ⟨a, b, z, ha, by rw [show i + (j + 1) = i + 1 + j by omega]; exact hz, by simpa using hy⟩

theorem diveItems_ok (hI : Keeps step I) {c : Nat} (kvs : List (Str × Doc)) {s s' : σ} {kvs' : List (Str × Doc)}
    (hs0 : I s) (h : diveItems cfg step c s kvs = .ok (kvs', s')) :
    kvs.map (·.1) = kvs'.map (·.1) ∧ ∀ k x, dget kvs k = some x →
      (cfg.sel k = true → ∃ s1 s2 y, I s1 ∧ dive cfg step (c + 1) none s1 x = .ok (y, s2) ∧ dget kvs' k = some y) ∧
      (cfg.sel k = false → dget kvs' k = some x) := by
  induction kvs generalizing s kvs' with
  | nil => simp [diveItems] at h; obtain ⟨rfl, rfl⟩ := h; simp [dget]
  | cons q kvs ih =>
    obtain ⟨k0, x0⟩ := q
    unfold diveItems at h
    by_cases hs : cfg.sel k0 = true
    · rw [if_pos hs] at h
      cases h1 : dive cfg step (c + 1) none s x0 with
      | error e => rw [h1] at h; simp at h
      | ok r =>
        obtain ⟨y, s1⟩ := r
        rw [h1] at h; simp only at h
        cases h2 : diveItems cfg step c s1 kvs with
        | error e => rw [h2] at h; simp at h
        | ok r =>
          obtain ⟨ys', s2⟩ := r
          rw [h2] at h; simp only [Except.ok.injEq, Prod.mk.injEq] at h
          obtain ⟨rfl, rfl⟩ := h
          obtain ⟨hl, hj⟩ := ih (dive_inv hI _ _ _ _ _ _ hs0 h1) h2
          refine ⟨by simp [hl], ?_⟩
          intro k x hx
          unfold dget at hx
          by_cases hk : k0 = k
          · rw [if_pos hk] at hx
            simp only [Option.some.injEq] at hx
            subst hx; subst hk
            refine ⟨fun _ => ⟨s, s1, y, hs0, h1, by simp [dget]⟩, fun hf => by rw [hs] at hf; simp at hf⟩
          · rw [if_neg hk] at hx
            have := hj k x hx
            simpa [dget, hk] using this
    · rw [if_neg hs] at h
      cases h2 : diveItems cfg step c s kvs with
      | error e => rw [h2] at h; simp at h
      | ok r =>
        obtain ⟨ys', s2⟩ := r
        rw [h2] at h; simp only [Except.ok.injEq, Prod.mk.injEq] at h
        obtain ⟨rfl, rfl⟩ := h
        obtain ⟨hl, hj⟩ := ih hs0 h2
        refine ⟨by simp [hl], ?_⟩
        intro k x hx
        unfold dget at hx
        by_cases hk : k0 = k
        · rw [if_pos hk] at hx
          simp only [Option.some.injEq] at hx
          subst hx; subst hk
          exact ⟨fun hf => absurd hf hs, fun _ => by simp [dget]⟩
        · rw [if_neg hk] at hx
          have := hj k x hx
          simpa [dget, hk] using this

theorem dive_stop {c : Nat} {bc : Option Coords} {s : σ} (d : Doc) (h : cfg.depth = some (c : Int)) :
    dive cfg step c bc s d = .ok (d, s) := by
  cases d <;> simp [dive, diveLeaf, h]

/-- One element: not beyond the depth, not a dictionary. -/
theorem dive_elem {c : Nat} {bc : Option Coords} {s : σ} (d : Doc) (h : cfg.depth ≠ some (c : Int))
    (hd : ¬ isDict d) {r : Doc} {s' : σ} (hr : dive cfg step c bc s d = .ok (r, s')) :
    (∃ s1, step s bc d = .ok (some r, s1)) ∨
    (∃ s1, step s bc d = .ok (none, s1) ∧
      ((∃ xs ys, d = .list xs ∧ r = .list ys ∧ diveList cfg step c bc 0 s1 xs = .ok (ys, s')) ∨
       ((∀ xs, d ≠ .list xs) ∧ r = d))) := by
  have leaf : ∀ d, (∀ xs, d ≠ .list xs) → diveLeaf cfg step c bc s d = .ok (r, s') →
      (∃ s1, step s bc d = .ok (some r, s1)) ∨
      (∃ s1, step s bc d = .ok (none, s1) ∧
      ((∃ xs ys, d = .list xs ∧ r = .list ys ∧ diveList cfg step c bc 0 s1 xs = .ok (ys, s')) ∨
       ((∀ xs, d ≠ .list xs) ∧ r = d))) := by
    intro d hl hr
    unfold diveLeaf at hr
    rw [if_neg h] at hr
    cases hs : step s bc d with
    | error e => rw [hs] at hr; simp at hr
    | ok p =>
      obtain ⟨o, s1⟩ := p
      rw [hs] at hr
      cases o with
      | some y => simp at hr; left; exact ⟨s1, by rw [hr.1]⟩
      | none => simp at hr; right; exact ⟨s1, rfl, .inr ⟨hl, hr.1.symm⟩⟩
  cases d with
  | dict kvs => exact absurd trivial hd
  | list xs =>
    unfold dive at hr
    rw [if_neg h] at hr
    cases hs : step s bc (.list xs) with
    | error e => rw [hs] at hr; simp at hr
    | ok p =>
      obtain ⟨o, s1⟩ := p
      rw [hs] at hr
      cases o with
      | some y => simp at hr; left; exact ⟨s1, by rw [hr.1]⟩
      | none =>
        simp only at hr
        cases hl : diveList cfg step c bc 0 s1 xs with
        | error e => rw [hl] at hr; simp at hr
        | ok p =>
          obtain ⟨ys, s2⟩ := p
          rw [hl] at hr; simp only [Except.ok.injEq, Prod.mk.injEq] at hr
          right
          exact ⟨s1, rfl, .inl ⟨xs, ys, rfl, hr.1.symm, by rw [hl, hr.2]⟩⟩
  | null => exact leaf _ (by simp) (by simpa [dive] using hr)
  | bool b => exact leaf _ (by simp) (by simpa [dive] using hr)
  | int b => exact leaf _ (by simp) (by simpa [dive] using hr)
  | atom b => exact leaf _ (by simp) (by simpa [dive] using hr)
  | str b => exact leaf _ (by simp) (by simpa [dive] using hr)

/-- A dictionary. -/
theorem dive_dict {c : Nat} {bc : Option Coords} {s : σ} (kvs : List (Str × Doc)) (h : cfg.depth ≠ some (c : Int))
    {r : Doc} {s' : σ} (hr : dive cfg step c bc s (.dict kvs) = .ok (r, s')) :
    ∃ kvs', r = .dict kvs' ∧ diveItems cfg step c s kvs = .ok (kvs', s') := by
  unfold dive at hr
  rw [if_neg h] at hr
  cases hl : diveItems cfg step c s kvs with
  | error e => rw [hl] at hr; simp at hr
  | ok p =>
    obtain ⟨ys, s2⟩ := p
    rw [hl] at hr; simp only [Except.ok.injEq, Prod.mk.injEq] at hr
    exact ⟨ys, hr.1.symm, by rw [hr.2]⟩

end

/-- Reachability by recursion on the path. -/
def reach (cfg : DiveCfg) (ask : Option Coords → Doc → Option Doc) :
    Nat → Option Coords → Doc → List VStep → Option (Doc × Option Coords)
  | c, bc, v, [] => if cfg.depth = some (c : Int) then none else some (v, bc)
  | c, bc, v, s :: p =>
    if cfg.depth = some (c : Int) then none
    else match v, s with
      | .dict kvs, .key k => if cfg.sel k then (dget kvs k).bind (fun x => reach cfg ask (c + 1) none x p) else none
      | .list xs, .idx i =>
        if (ask bc (.list xs)).isNone then
          xs[i]?.bind (fun x => reach cfg ask (c + 1) (updBase cfg.pandas c bc i) x p)
        else none
      | _, _ => none

theorem reach_prefix {cfg : DiveCfg} {ask : Option Coords → Doc → Option Doc} (p : List VStep) {c : Nat}
    {bc : Option Coords} {v : Doc} (s : VStep) :
    reach cfg ask c bc v (p ++ [s]) = (reach cfg ask c bc v p).bind (fun q =>
      match q.1, s with
      | .dict kvs, .key k =>
        if cfg.sel k then (dget kvs k).bind (fun x =>
          if cfg.depth = some ((c + p.length + 1 : Nat) : Int) then none else some (x, none)) else none
      | .list xs, .idx i =>
        if (ask q.2 (.list xs)).isNone then xs[i]?.bind (fun x =>
          if cfg.depth = some ((c + p.length + 1 : Nat) : Int) then none
          else some (x, updBase cfg.pandas (c + p.length) q.2 i)) else none
      | _, _ => none) := by
  induction p generalizing c bc v with
  | nil =>
    simp only [List.nil_append, reach]
    by_cases hd : cfg.depth = some (c : Int)
    · simp [hd]
    · simp only [hd, if_false, Option.bind_some, List.length_nil, Nat.add_zero]
  | cons a p ih =>
    simp only [List.cons_append, reach]
    by_cases hd : cfg.depth = some (c : Int)
    · simp [hd]
    · simp only [hd, if_false]
      cases v <;> cases a <;> simp only [Option.bind_none]
      case list.idx xs i =>
        cases hx : (ask bc (.list xs)).isNone with
        | false => simp
        | true =>
          simp only [if_true]
          cases hi : xs[i]? with
          | none => simp
          | some x =>
            simp only [Option.bind_some]
            rw [ih, List.length_cons, show c + 1 + p.length = c + (p.length + 1) by omega]
      case dict.key kvs k =>
        cases hx : cfg.sel k with
        | false => simp
        | true =>
          simp only [if_true]
          cases hi : dget kvs k with
          | none => simp
          | some x =>
            simp only [Option.bind_some]
            rw [ih, List.length_cons, show c + 1 + p.length = c + (p.length + 1) by omega]

theorem reached_iff {sel : Str → Prop} {cfg : DiveCfg} (hsel : ∀ k, cfg.sel k = true ↔ sel k)
    {ask : Option Coords → Doc → Option Doc} {v : Doc} {st : Option Coords} (p : List VStep) (x : Doc)
    (b : Option Coords) :
    Reached sel cfg.depth cfg.pandas ask v st p x b ↔ reach cfg ask 0 st v p = some (x, b) := by
  constructor
  · intro h
    induction h with
    | root hd => simp [reach, hd]
    | key p kvs bc k x _ hg hs hd ih =>
      rw [reach_prefix, ih]
      have : cfg.depth ≠ some ((0 + p.length + 1 : Nat) : Int) := by
        intro e; apply hd; rw [e]; congr 1; omega
      simp [(hsel k).2 hs, hg, this]
      exact hd
    | idx p xs bc i x _ ha hx hd ih =>
      rw [reach_prefix, ih]
      have : cfg.depth ≠ some ((0 + p.length + 1 : Nat) : Int) := by
        intro e; apply hd; rw [e]; congr 1; omega
      simp [ha, hx, this]
      exact hd
  · revert x b
    refine snocInd (P := fun p => ∀ x b, reach cfg ask 0 st v p = some (x, b) →
      Reached sel cfg.depth cfg.pandas ask v st p x b) ?_ ?_ p
    · intro x b h
      simp only [reach] at h
      split at h
      · simp at h
      · rename_i hd
        simp at h
        obtain ⟨rfl, rfl⟩ := h
        exact .root (by simpa using hd)
    · intro p s ih x b h
      rw [reach_prefix] at h
      cases hp : reach cfg ask 0 st v p with
      | none => rw [hp] at h; simp at h
      | some q =>
        obtain ⟨y, bc⟩ := q
        rw [hp] at h
        have hr := ih y bc hp
        simp only [Option.bind_some] at h
        have hcast : ((0 + p.length + 1 : Nat) : Int) = (p.length : Int) + 1 := by omega
        cases y <;> cases s <;> simp only [reduceCtorEq] at h
        case list.idx xs i =>
          by_cases ha : (ask bc (.list xs)).isNone = true
          · rw [if_pos ha] at h
            cases hi : xs[i]? with
            | none => rw [hi] at h; simp at h
            | some z =>
              rw [hi] at h
              simp only [Option.bind_some, hcast] at h
              split at h
              · simp at h
              · rename_i hd
                simp only [Option.some.injEq, Prod.mk.injEq, Nat.zero_add] at h
                obtain ⟨rfl, rfl⟩ := h
                exact .idx p xs bc i _ hr (by simpa using ha) hi hd
          · rw [if_neg ha] at h; simp at h
        case dict.key kvs k =>
          by_cases ha : cfg.sel k = true
          · rw [if_pos ha] at h
            cases hi : dget kvs k with
            | none => rw [hi] at h; simp at h
            | some z =>
              rw [hi] at h
              simp only [Option.bind_some, hcast] at h
              split at h
              · simp at h
              · rename_i hd
                simp only [Option.some.injEq, Prod.mk.injEq] at h
                obtain ⟨rfl, rfl⟩ := h
                exact .key p kvs bc k _ hr hi ((hsel k).1 ha) hd
          · rw [if_neg ha] at h; simp at h

section
variable {σ : Type} {cfg : DiveCfg} {step : σ → Option Coords → Doc → Except PyErr (Option Doc × σ)}
variable {I : σ → Prop} {ask : Option Coords → Doc → Option Doc}
/-- The answers do not depend on the state, as long as it has its property. -/
def Answers (step : σ → Option Coords → Doc → Except PyErr (Option Doc × σ)) (I : σ → Prop)
    (ask : Option Coords → Doc → Option Doc) : Prop :=
  ∀ s bc d o s', I s → step s bc d = .ok (o, s') → o = ask bc d

/-- Whether there is an answer does not depend on the state, as long as it has its property. -/
def AnswersIf (step : σ → Option Coords → Doc → Except PyErr (Option Doc × σ)) (I : σ → Prop)
    (ask : Option Coords → Doc → Option Doc) : Prop :=
  ∀ s bc d o s', I s → step s bc d = .ok (o, s') → (o = none ↔ ask bc d = none)

theorem Answers.toIf (hA : Answers step I ask) : AnswersIf step I ask :=
  fun s bc d o s' hs hc => by rw [hA s bc d o s' hs hc]

theorem dive_processed (hI : Keeps step I) (hA : Answers step I ask) (p : List VStep) {c : Nat} {bc : Option Coords} {s s' : σ}
    {v r x y : Doc} {b : Option Coords} (hs0 : I s) (h : dive cfg step c bc s v = .ok (r, s'))
    (hr : reach cfg ask c bc v p = some (x, b)) (hd : ¬ isDict x) (hy : ask b x = some y) :
    valAt r p = some y := by
  induction p generalizing c bc s s' v r with
  | nil =>
    simp only [reach] at hr
    split at hr
    · simp at hr
    · rename_i hdep
      simp at hr
      obtain ⟨rfl, rfl⟩ := hr
      rcases dive_elem v hdep hd h with ⟨s1, hs⟩ | ⟨s1, hs, _⟩
      · have := hA _ _ _ _ _ hs0 hs
        rw [hy] at this; simp at this; subst this; rfl
      · have := hA _ _ _ _ _ hs0 hs
        rw [hy] at this; simp at this
  | cons a p ih =>
    simp only [reach] at hr
    split at hr
    · simp at hr
    · rename_i hdep
      cases v <;> cases a <;> simp only [reduceCtorEq] at hr
      case list.idx xs i =>
        split at hr
        · rename_i hn
          cases hi : xs[i]? with
          | none => rw [hi] at hr; simp at hr
          | some z =>
            rw [hi] at hr; simp only [Option.bind_some] at hr
            rcases dive_elem (.list xs) hdep (by simp [isDict]) h with ⟨s1, hs⟩ | ⟨s1, hs, hh⟩
            · have := hA _ _ _ _ _ hs0 hs
              rw [← this] at hn; simp at hn
            · rcases hh with ⟨xs', ys, he, rfl, hl⟩ | ⟨hne, _⟩
              · simp only [Doc.list.injEq] at he; subst he
                obtain ⟨s2, s3, w, hs2, hw, hys⟩ := (diveList_ok hI xs (hI _ _ _ _ _ hs0 hs) hl).2 i z hi
                rw [Nat.zero_add] at hw
                simp only [valAt, stepIn, hys, Option.bind_some]
                exact ih hs2 hw hr
              · exact absurd rfl (hne xs)
        · simp at hr
      case dict.key kvs k =>
        split at hr
        · rename_i hk
          cases hi : dget kvs k with
          | none => rw [hi] at hr; simp at hr
          | some z =>
            rw [hi] at hr; simp only [Option.bind_some] at hr
            obtain ⟨kvs', rfl, hl⟩ := dive_dict kvs hdep h
            obtain ⟨s2, s3, w, hs2, hw, hys⟩ := ((diveItems_ok hI kvs hs0 hl).2 k z hi).1 hk
            simp only [valAt, stepIn, hys, Option.bind_some]
            exact ih hs2 hw hr
        · simp at hr

theorem sameShape_refl (d : Doc) : SameShape d d := by cases d <;> simp [SameShape]

theorem dive_frame (hI : Keeps step I) (hA : AnswersIf step I ask) (p : List VStep) {c : Nat} {bc : Option Coords} {s s' : σ}
    {v r x : Doc} (hs0 : I s) (h : dive cfg step c bc s v = .ok (r, s')) (hx : valAt v p = some x)
    (hno : ∀ q z b, q <+: p → reach cfg ask c bc v q = some (z, b) → ¬ isDict z → ask b z = none) :
    ∃ y, valAt r p = some y ∧ SameShape x y := by
  by_cases hdep : cfg.depth = some (c : Int)
  · rw [dive_stop v hdep] at h
    simp at h
    obtain ⟨rfl, _⟩ := h
    exact ⟨x, hx, sameShape_refl x⟩
  induction p generalizing c bc s s' v r with
  | nil =>
    simp [valAt] at hx
    subst hx
    have h0 : reach cfg ask c bc v [] = some (v, bc) := by simp [reach, hdep]
    refine ⟨r, rfl, ?_⟩
    by_cases hd : isDict v
    · cases v <;> simp [isDict] at hd
      obtain ⟨kvs', rfl, hl⟩ := dive_dict _ hdep h
      exact (diveItems_ok hI _ hs0 hl).1
    · rcases dive_elem v hdep hd h with ⟨s1, hs⟩ | ⟨s1, hs, hh⟩
      · have := (hA _ _ _ _ _ hs0 hs).2 (hno [] v bc (List.prefix_rfl) h0 hd)
        simp at this
      · rcases hh with ⟨xs', ys, rfl, rfl, hl⟩ | ⟨_, rfl⟩
        · exact (diveList_ok hI _ (hI _ _ _ _ _ hs0 hs) hl).1
        · exact sameShape_refl _
  | cons a p ih =>
    simp only [valAt] at hx
    cases v <;> cases a <;> simp only [stepIn, Option.bind_none, reduceCtorEq] at hx
    case list.idx xs i =>
      cases hi : xs[i]? with
      | none => rw [hi] at hx; simp at hx
      | some z =>
        rw [hi] at hx; simp only [Option.bind_some] at hx
        have h0 : reach cfg ask c bc (.list xs) [] = some (.list xs, bc) := by simp [reach, hdep]
        have hn := hno [] _ bc (List.nil_prefix) h0 (by simp [isDict])
        rcases dive_elem (.list xs) hdep (by simp [isDict]) h with ⟨s1, hs⟩ | ⟨s1, hs, hh⟩
        · have := (hA _ _ _ _ _ hs0 hs).2 hn
          simp at this
        · rcases hh with ⟨xs', ys, he, rfl, hl⟩ | ⟨hne, _⟩
          · simp only [Doc.list.injEq] at he; subst he
            obtain ⟨s2, s3, w, hs2, hw, hys⟩ := (diveList_ok hI xs (hI _ _ _ _ _ hs0 hs) hl).2 i z hi
            rw [Nat.zero_add] at hw
            simp only [valAt, stepIn, hys, Option.bind_some]
            by_cases hdep' : cfg.depth = some ((c + 1 : Nat) : Int)
            · rw [dive_stop z hdep'] at hw
              simp at hw
              obtain ⟨rfl, _⟩ := hw
              exact ⟨x, hx, sameShape_refl x⟩
            · refine ih hs2 hw hx ?_ hdep'
              intro q z' b hq hr hz
              refine hno (.idx i :: q) z' b ?_ ?_ hz
              · exact (List.cons_prefix_cons).2 ⟨rfl, hq⟩
              · simp [reach, hdep, hn, hi, hr]
          · exact absurd rfl (hne xs)
    case dict.key kvs k =>
      cases hi : dget kvs k with
      | none => rw [hi] at hx; simp at hx
      | some z =>
        rw [hi] at hx; simp only [Option.bind_some] at hx
        obtain ⟨kvs', rfl, hl⟩ := dive_dict kvs hdep h
        by_cases hk : cfg.sel k = true
        · obtain ⟨s2, s3, w, hs2, hw, hys⟩ := ((diveItems_ok hI kvs hs0 hl).2 k z hi).1 hk
          simp only [valAt, stepIn, hys, Option.bind_some]
          by_cases hdep' : cfg.depth = some ((c + 1 : Nat) : Int)
          · rw [dive_stop z hdep'] at hw
            simp at hw
            obtain ⟨rfl, _⟩ := hw
            exact ⟨x, hx, sameShape_refl x⟩
          · refine ih hs2 hw hx ?_ hdep'
            intro q z' b hq hr hz
            refine hno (.key k :: q) z' b ?_ ?_ hz
            · exact (List.cons_prefix_cons).2 ⟨rfl, hq⟩
            · simp [reach, hdep, hk, hi, hr]
        · have := ((diveItems_ok hI kvs hs0 hl).2 k z hi).2 (by simpa using hk)
          exact ⟨x, by simp [valAt, stepIn, this, hx], sameShape_refl x⟩

/-- Every element reached was answered. -/
theorem dive_reached_ok (hI : Keeps step I) (hA : AnswersIf step I ask) (p : List VStep) {c : Nat}
    {bc : Option Coords} {s s' : σ} {v r x : Doc} {b : Option Coords} (hs0 : I s)
    (h : dive cfg step c bc s v = .ok (r, s')) (hr : reach cfg ask c bc v p = some (x, b)) (hd : ¬ isDict x) :
    ∃ s1 o s2, I s1 ∧ step s1 b x = .ok (o, s2) := by
  induction p generalizing c bc s s' v r with
  | nil =>
    simp only [reach] at hr
    split at hr
    · simp at hr
    · rename_i hdep
      simp at hr
      obtain ⟨rfl, rfl⟩ := hr
      rcases dive_elem v hdep hd h with ⟨s1, hs⟩ | ⟨s1, hs, _⟩
      · exact ⟨_, _, _, hs0, hs⟩
      · exact ⟨_, _, _, hs0, hs⟩
  | cons a p ih =>
    simp only [reach] at hr
    split at hr
    · simp at hr
    · rename_i hdep
      cases v <;> cases a <;> simp only [reduceCtorEq] at hr
      case list.idx xs i =>
        split at hr
        · rename_i hn
          cases hi : xs[i]? with
          | none => rw [hi] at hr; simp at hr
          | some z =>
            rw [hi] at hr; simp only [Option.bind_some] at hr
            rcases dive_elem (.list xs) hdep (by simp [isDict]) h with ⟨s1, hs⟩ | ⟨s1, hs, hh⟩
            · have := (hA _ _ _ _ _ hs0 hs).2 (by simpa using hn)
              simp at this
            · rcases hh with ⟨xs', ys, he, rfl, hl⟩ | ⟨hne, _⟩
              · simp only [Doc.list.injEq] at he; subst he
                obtain ⟨s2, s3, w, hs2, hw, hys⟩ := (diveList_ok hI xs (hI _ _ _ _ _ hs0 hs) hl).2 i z hi
                rw [Nat.zero_add] at hw
                exact ih hs2 hw hr
              · exact absurd rfl (hne xs)
        · simp at hr
      case dict.key kvs k =>
        split at hr
        · rename_i hk
          cases hi : dget kvs k with
          | none => rw [hi] at hr; simp at hr
          | some z =>
            rw [hi] at hr; simp only [Option.bind_some] at hr
            obtain ⟨kvs', rfl, hl⟩ := dive_dict kvs hdep h
            obtain ⟨s2, s3, w, hs2, hw, hys⟩ := ((diveItems_ok hI kvs hs0 hl).2 k z hi).1 hk
            exact ih hs2 hw hr
        · simp at hr

/-- Something reached failed with this error. -/
def FailsAt (cfg : DiveCfg) (step : σ → Option Coords → Doc → Except PyErr (Option Doc × σ)) (I : σ → Prop)
    (ask : Option Coords → Doc → Option Doc) (c : Nat) (bc : Option Coords) (v : Doc) (e : PyErr) : Prop :=
  ∃ p x b s1, reach cfg ask c bc v p = some (x, b) ∧ ¬ isDict x ∧ I s1 ∧ step s1 b x = .error e

theorem diveLeaf_error (c : Nat) (bc : Option Coords) (s : σ) (d : Doc)
    (e : PyErr) (hs : I s) (hd : ¬ isDict d) (h : diveLeaf cfg step c bc s d = .error e) :
    FailsAt cfg step I ask c bc d e := by
  unfold diveLeaf at h
  split at h
  · simp at h
  · rename_i hdep
    cases h1 : step s bc d with
    | error e' => rw [h1] at h; simp at h; subst h; exact ⟨[], d, bc, s, by simp [reach, hdep], hd, hs, h1⟩
    | ok p => obtain ⟨o, s1⟩ := p; rw [h1] at h; cases o <;> simp at h

/-- Keys of Python dictionaries are distinct: the item met is the one found by its key. -/
theorem dget_head {kvs : List (Str × Doc)} {k : Str} {x : Doc} : dget ((k, x) :: kvs) k = some x := by simp [dget]

mutual
theorem dive_error (hI : Keeps step I) (hA : AnswersIf step I ask) (c : Nat) (bc : Option Coords) (s : σ) (d : Doc)
    (e : PyErr) (hs : I s) (hk : KeysOk d) (h : dive cfg step c bc s d = .error e) :
    FailsAt cfg step I ask c bc d e := by
  cases d with
  | dict kvs =>
    unfold dive at h
    split at h
    · simp at h
    · rename_i hdep
      cases h1 : diveItems cfg step c s kvs with
      | error e' =>
        rw [h1] at h; simp at h; subst h
        cases hk with
        | dict _ hnd hks =>
        obtain ⟨k, x, hg, hsel, p, y, b, s1, hr, hrest⟩ := diveItems_error hI hA c s kvs e' hs hnd hks h1
        exact ⟨.key k :: p, y, b, s1, by simp [reach, hdep, hsel, hg, hr], hrest⟩
      | ok p => obtain ⟨o, s1⟩ := p; rw [h1] at h; simp at h
  | list xs =>
    unfold dive at h
    split at h
    · simp at h
    · rename_i hdep
      cases h1 : step s bc (.list xs) with
      | error e' =>
        rw [h1] at h; simp at h; subst h
        exact ⟨[], _, bc, s, by simp [reach, hdep], by simp [isDict], hs, h1⟩
      | ok p =>
        obtain ⟨o, s1⟩ := p
        have hs1 := hI _ _ _ _ _ hs h1
        have ha := hA _ _ _ _ _ hs h1
        rw [h1] at h
        cases o with
        | some y => simp at h
        | none =>
          simp only at h
          cases h2 : diveList cfg step c bc 0 s1 xs with
          | error e' =>
            rw [h2] at h; simp at h; subst h
            cases hk with
            | list _ hks =>
            obtain ⟨j, x, hg, p, y, b, s1, hr, hrest⟩ := diveList_error hI hA c bc 0 s1 xs e' hs1 hks h2
            rw [Nat.zero_add] at hr
            exact ⟨.idx j :: p, y, b, s1, by simp [reach, hdep, ha.1, hg, hr], hrest⟩
          | ok p => obtain ⟨o, s2⟩ := p; rw [h2] at h; simp at h
  | null => exact diveLeaf_error c bc s _ e hs (by simp [isDict]) (by simpa [dive] using h)
  | bool b => exact diveLeaf_error c bc s _ e hs (by simp [isDict]) (by simpa [dive] using h)
  | int b => exact diveLeaf_error c bc s _ e hs (by simp [isDict]) (by simpa [dive] using h)
  | atom b => exact diveLeaf_error c bc s _ e hs (by simp [isDict]) (by simpa [dive] using h)
  | str b => exact diveLeaf_error c bc s _ e hs (by simp [isDict]) (by simpa [dive] using h)

theorem diveList_error (hI : Keeps step I) (hA : AnswersIf step I ask) (c : Nat) (bc : Option Coords) (i : Nat) (s : σ)
    (xs : List Doc) (e : PyErr) (hs : I s) (hk : ∀ x ∈ xs, KeysOk x)
    (h : diveList cfg step c bc i s xs = .error e) :
    ∃ j x, xs[j]? = some x ∧ FailsAt cfg step I ask (c + 1) (updBase cfg.pandas c bc (i + j)) x e := by
  cases xs with
  | nil => simp [diveList] at h
  | cons x xs =>
    unfold diveList at h
    cases h1 : dive cfg step (c + 1) (updBase cfg.pandas c bc i) s x with
    | error e' =>
      rw [h1] at h; simp at h; subst h
      exact ⟨0, x, rfl, dive_error hI hA _ _ s x _ hs (hk x (by simp)) h1⟩
    | ok p =>
      obtain ⟨o, s1⟩ := p
      have hs1 := dive_inv hI _ _ s x o s1 hs h1
      rw [h1] at h; simp only at h
      cases h2 : diveList cfg step c bc (i + 1) s1 xs with
      | error e' =>
        rw [h2] at h; simp at h; subst h
        obtain ⟨j, y, hg, hf⟩ := diveList_error hI hA c bc (i + 1) s1 xs e' hs1 (fun y hy => hk y (by simp [hy])) h2
        exact ⟨j + 1, y, by simpa using hg, by rw [show i + (j + 1) = i + 1 + j by omega]; exact hf⟩
      | ok p => obtain ⟨o, s2⟩ := p; rw [h2] at h; simp at h

theorem diveItems_error (hI : Keeps step I) (hA : AnswersIf step I ask) (c : Nat) (s : σ)
    (kvs : List (Str × Doc)) (e : PyErr) (hs : I s) (hnd : (kvs.map (·.1)).Nodup) (hk : ∀ p ∈ kvs, KeysOk p.2)
    (h : diveItems cfg step c s kvs = .error e) :
    ∃ k x, dget kvs k = some x ∧ cfg.sel k = true ∧ FailsAt cfg step I ask (c + 1) none x e := by
  cases kvs with
  | nil => simp [diveItems] at h
  | cons q kvs =>
    obtain ⟨k, x⟩ := q
    simp only [List.map_cons, List.nodup_cons] at hnd
    have lift : (∃ k' x', dget kvs k' = some x' ∧ cfg.sel k' = true ∧ FailsAt cfg step I ask (c + 1) none x' e) →
        ∃ k' x', dget ((k, x) :: kvs) k' = some x' ∧ cfg.sel k' = true ∧
          FailsAt cfg step I ask (c + 1) none x' e := by
      rintro ⟨k', x', hg, hr⟩
      refine ⟨k', x', ?_, hr⟩
      have hne : k ≠ k' := by
        rintro rfl
        exact hnd.1 (List.mem_map.2 ⟨(k, x'), mem_of_dget hg, rfl⟩)
      simp [dget, hne, hg]
    unfold diveItems at h
    split at h
    · rename_i hsel
      cases h1 : dive cfg step (c + 1) none s x with
      | error e' =>
        rw [h1] at h; simp at h; subst h
        exact ⟨k, x, dget_head, hsel, dive_error hI hA _ _ s x _ hs (hk (k, x) (by simp)) h1⟩
      | ok p =>
        obtain ⟨o, s1⟩ := p
        have hs1 := dive_inv hI _ _ s x o s1 hs h1
        rw [h1] at h; simp only at h
        cases h2 : diveItems cfg step c s1 kvs with
        | error e' =>
          rw [h2] at h; simp at h; subst h
          exact lift (diveItems_error hI hA c s1 kvs e' hs1 hnd.2 (fun y hy => hk y (by simp [hy])) h2)
        | ok p => obtain ⟨o, s2⟩ := p; rw [h2] at h; simp at h
    · cases h2 : diveItems cfg step c s kvs with
      | error e' =>
        rw [h2] at h; simp at h; subst h
        exact lift (diveItems_error hI hA c s kvs e' hs hnd.2 (fun y hy => hk y (by simp [hy])) h2)
      | ok p => obtain ⟨o, s2⟩ := p; rw [h2] at h; simp at h
end

end
end Lemmas
