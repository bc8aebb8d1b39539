import Verif.Spec.DiveFrame
import Verif.Lemmas.Elementwise
set_option linter.unusedSimpArgs false
/-
Lemmas about diving into tables.
-/
namespace Lemmas
open Py Model Spec

section Loop
variable {σ α ε κ : Type} {f : Nat → σ → α → Except PyErr (α × σ)}

theorem loop_ok {I : σ → Prop} (hI : ∀ o s a b s', I s → f o s a = .ok (b, s') → I s') (xs : List α) {o : Nat} {s s' : σ} {ys : List α}
    (hs : I s) (h : loopItems f o s xs = .ok (ys, s')) :
    I s' ∧ xs.length = ys.length ∧ ∀ j x, xs[j]? = some x → ∃ s1 s2 y, I s1 ∧ f (o + j) s1 x = .ok (y, s2) ∧ ys[j]? = some y := by
  induction xs generalizing o s ys with
  | nil => simp [loopItems] at h; obtain ⟨rfl, rfl⟩ := h; simp [hs]
  | cons x xs ih =>
    unfold loopItems at h
    cases h1 : f o s x with
    | error e => rw [h1] at h; simp at h
    | ok r =>
      obtain ⟨y, s1⟩ := r
      rw [h1] at h; simp only at h
      cases h2 : loopItems f (o + 1) s1 xs with
      | error e => rw [h2] at h; simp at h
      | ok r =>
        obtain ⟨ys', s2⟩ := r
        rw [h2] at h; simp only [Except.ok.injEq, Prod.mk.injEq] at h
        obtain ⟨rfl, rfl⟩ := h
        obtain ⟨hi, hl, hj⟩ := ih (hI _ _ _ _ _ hs h1) h2
        refine ⟨hi, by simp [hl], ?_⟩
        intro j x' hx
        cases j with
        | zero => simp at hx; subst hx; exact ⟨s, s1, y, hs, h1, rfl⟩
        | succ j =>
          simp at hx
          obtain ⟨a, b, z, ha, hz, hy⟩ := hj j x' hx
          exact ⟨a, b, z, ha, by rw [show o + (j + 1) = o + 1 + j by omega]; exact hz, by simpa using hy⟩

theorem loop_error {I : σ → Prop} (hI : ∀ o s a b s', I s → f o s a = .ok (b, s') → I s') (xs : List α) {o : Nat} {s : σ} {e : PyErr}
    (hs : I s) (h : loopItems f o s xs = .error e) :
    ∃ j x s1, xs[j]? = some x ∧ I s1 ∧ f (o + j) s1 x = .error e := by
  induction xs generalizing o s with
  | nil => simp [loopItems] at h
  | cons x xs ih =>
    unfold loopItems at h
    cases h1 : f o s x with
    | error e' => rw [h1] at h; simp at h; subst h; exact ⟨0, x, s, rfl, hs, h1⟩
    | ok r =>
      obtain ⟨y, s1⟩ := r
      rw [h1] at h; simp only at h
      cases h2 : loopItems f (o + 1) s1 xs with
      | ok r => rw [h2] at h; simp at h
      | error e' =>
        rw [h2] at h; simp at h; subst h
        obtain ⟨j, x', s2, h3, h4, h5⟩ := ih (hI _ _ _ _ _ hs h1) h2
        exact ⟨j + 1, x', s2, by simpa using h3, h4, by rw [show o + (j + 1) = o + 1 + j by omega]; exact h5⟩

/-- Nothing happens, or one thing as the first and the others after it. -/
def FirstAt (Fr Sp : σ → Prop) (T : ε → Prop) (key : ε → κ) (A B : ε → Prop) (s' : σ) : Prop :=
  (Fr s' ∧ ∀ e, ¬ T e) ∨ (Sp s' ∧ ∃ k0, ∀ e, T e → (key e = k0 → A e) ∧ (key e ≠ k0 → B e))

variable {Fr Sp : σ → Prop} {T : Nat → α → ε → Prop} {key : ε → κ} {A B : α → ε → Prop}

theorem loop_spent (hS : ∀ o s a b s', Sp s → f o s a = .ok (b, s') → Sp s' ∧ ∀ e, T o a e → B b e) (xs : List α) {o : Nat} {s s' : σ}
    {ys : List α} (hs : Sp s) (h : loopItems f o s xs = .ok (ys, s')) :
    Sp s' ∧ ∀ j e, (∃ a, xs[j]? = some a ∧ T (o + j) a e) → ∃ b, ys[j]? = some b ∧ B b e := by
  obtain ⟨h1, _, h2⟩ := loop_ok (I := Sp) (fun o s a b s' hs h => (hS o s a b s' hs h).1) xs hs h
  refine ⟨h1, ?_⟩
  rintro j e ⟨a, ha, ht⟩
  obtain ⟨s1, s2, y, h3, h4, h5⟩ := h2 j a ha
  exact ⟨y, h5, (hS _ _ _ _ _ h3 h4).2 e ht⟩

theorem loop_first (hF : ∀ o s a b s', Fr s → f o s a = .ok (b, s') → FirstAt Fr Sp (T o a) key (A b) (B b) s')
    (hS : ∀ o s a b s', Sp s → f o s a = .ok (b, s') → Sp s' ∧ ∀ e, T o a e → B b e) (xs : List α) {o : Nat} {s s' : σ}
    {ys : List α} (hs : Fr s) (h : loopItems f o s xs = .ok (ys, s')) :
    FirstAt Fr Sp (fun q : Nat × ε => ∃ a, xs[q.1]? = some a ∧ T (o + q.1) a q.2) (fun q => (q.1, key q.2))
      (fun q => ∃ b, ys[q.1]? = some b ∧ A b q.2) (fun q => ∃ b, ys[q.1]? = some b ∧ B b q.2) s' := by
  induction xs generalizing o s ys with
  | nil => simp [loopItems] at h; obtain ⟨rfl, rfl⟩ := h; exact .inl ⟨hs, by simp⟩
  | cons x xs ih =>
    unfold loopItems at h
    cases h1 : f o s x with
    | error e => rw [h1] at h; simp at h
    | ok r =>
      obtain ⟨y, s1⟩ := r
      rw [h1] at h; simp only at h
      cases h2 : loopItems f (o + 1) s1 xs with
      | error e => rw [h2] at h; simp at h
      | ok r =>
        obtain ⟨ys', s2⟩ := r
        rw [h2] at h; simp only [Except.ok.injEq, Prod.mk.injEq] at h
        obtain ⟨rfl, rfl⟩ := h
        have hoff : ∀ j, o + (j + 1) = o + 1 + j := fun j => by omega
        rcases hF _ _ _ _ _ hs h1 with ⟨a1, a2⟩ | ⟨a1, k0, a2⟩
        · rcases ih a1 h2 with ⟨b1, b2⟩ | ⟨b1, ⟨j0, k0⟩, b2⟩
          · refine .inl ⟨b1, ?_⟩
            rintro ⟨j, e⟩ ⟨a, ha, ht⟩
            cases j with
            | zero => simp at ha; subst ha; exact a2 e ht
            | succ j => exact b2 (j, e) ⟨a, by simpa using ha, by rw [hoff] at ht; exact ht⟩
          · refine .inr ⟨b1, (j0 + 1, k0), ?_⟩
            rintro ⟨j, e⟩ ⟨a, ha, ht⟩
            cases j with
            | zero => simp at ha; subst ha; exact absurd ht (a2 e)
            | succ j =>
              have := b2 (j, e) ⟨a, by simpa using ha, by rw [hoff] at ht; exact ht⟩
              simpa using this
        · obtain ⟨b1, b2⟩ := loop_spent hS xs a1 h2
          refine .inr ⟨b1, (0, k0), ?_⟩
          rintro ⟨j, e⟩ ⟨a, ha, ht⟩
          cases j with
          | zero =>
            simp at ha; subst ha
            simpa using a2 e ht
          | succ j =>
            have := b2 j e ⟨a, by simpa using ha, by rw [hoff] at ht; exact ht⟩
            simpa using this

end Loop

/-- Reaching does not depend on the depth itself but on what is left of it. -/
theorem reach_shift {cfg : DiveCfg} {ask : Option Coords → Doc → Option Doc} (hp : cfg.pandas = true) (n : Nat) (p : List VStep) (c : Nat)
    (bc : Option Coords) (v : Doc) :
    reach cfg ask (c + n) bc v p = reach ⟨cfg.sel, cfg.depth.map (· - (n : Int)), true⟩ ask c bc v p := by
  have hd : ∀ c : Nat, cfg.depth = some ((c + n : Nat) : Int) ↔ cfg.depth.map (· - (n : Int)) = some (c : Int) := by
    intro c
    cases cfg.depth with
    | none => simp
    | some d => simp; omega
  induction p generalizing c bc v with
  | nil => simp only [reach, hd]
  | cons a p ih =>
    have ih' : ∀ c bc v, reach cfg ask (c + n + 1) bc v p = reach ⟨cfg.sel, cfg.depth.map (· - (n : Int)), true⟩ ask (c + 1) bc v p := by
      intro c bc v
      rw [← ih (c + 1) bc v, show c + n + 1 = c + 1 + n by omega]
    have hu : ∀ i, updBase cfg.pandas (c + n) bc i = updBase true c bc i := by intro i; simp [updBase, hp]
    simp only [reach, hd, ih', hu]

section
variable {σ : Type} {sel : Label → Bool} {depth : Option Int} {step : σ → Option Coords → Doc → Except PyErr (Option Doc × σ)}
variable {T : Option Coords → Doc → Bool} {A B : Option Coords → Doc → Option Doc} {Fr Sp : σ → Prop} {I : σ → Prop}

/-- Where a cell of a table is asked about. -/
abbrev cellPos (st : Option Coords) (i j : Nat) : Option Coords := st.map (fun c => ⟨c.row + i, c.col + j⟩)

/-- A cell is dived into. -/
def DivedInto (sel : Label → Bool) (depth : Option Int) (t : Tabled) (i j : Nat) : Prop :=
  ∃ k, CellLabel t i j k ∧ sel k = true ∧ ∀ n < cellDepth t, depth ≠ some (n : Int)

abbrev Ev := List VStep × Doc × Option Coords

private def TCell (sel : Label → Bool) (depth : Option Int) (T : Option Coords → Doc → Bool) (B : Option Coords → Doc → Option Doc)
    (c : Nat) (bc : Option Coords) (o : Nat) (a : Label × Doc) (e : Ev) : Prop :=
  (c ≠ 0 ∨ sel a.1 = true) ∧ reach (cellCfg sel depth) (askTook T B) (c + 1) (bc.map (fun c => ⟨c.row + o, c.col⟩)) a.2 e.1 = some e.2 ∧
    ¬ isDict e.2.1 ∧ T e.2.2 e.2.1 = true

private def ACell (A : Option Coords → Doc → Option Doc) (b : Label × Doc) (e : Ev) : Prop := Answered A b.2 e.1 e.2.2 e.2.1

private theorem cell_spent (hS : Does step T Sp Sp B) (c : Nat) (bc : Option Coords) (o : Nat) (s : σ) (a b : Label × Doc) (s' : σ) (hs : Sp s)
    (h : diveCell sel depth step c bc o s a = .ok (b, s')) : Sp s' ∧ ∀ e, TCell sel depth T B c bc o a e → ACell B b e := by
  unfold diveCell at h
  split at h
  · cases h1 : dive (cellCfg sel depth) step (c + 1) (bc.map (fun c => ⟨c.row + o, c.col⟩)) s a.2 with
    | error e => rw [h1] at h; simp at h
    | ok q =>
      obtain ⟨y, s1⟩ := q
      rw [h1] at h; simp at h
      obtain ⟨rfl, rfl⟩ := h
      refine ⟨dive_inv hS.keeps _ _ _ _ _ _ hs h1, ?_⟩
      rintro ⟨p, z, b⟩ ⟨_, hr, hz, ht⟩
      exact dive_spent hS p hs h1 hr hz ht
  · rename_i hc
    simp at h
    obtain ⟨rfl, rfl⟩ := h
    refine ⟨hs, ?_⟩
    rintro e ⟨h0, _⟩
    simp at hc
    rcases h0 with h0 | h0
    · exact absurd hc.1 h0
    · rw [hc.2] at h0; cases h0

private theorem cell_first (hF : Does step T Fr Sp A) (hS : Does step T Sp Sp B) (c : Nat) (bc : Option Coords) (o : Nat) (s : σ)
    (a b : Label × Doc) (s' : σ) (hs : Fr s) (h : diveCell sel depth step c bc o s a = .ok (b, s')) :
    FirstAt Fr Sp (TCell sel depth T B c bc o a) (fun e => e.1) (ACell A b) (ACell B b) s' := by
  unfold diveCell at h
  split at h
  · cases h1 : dive (cellCfg sel depth) step (c + 1) (bc.map (fun c => ⟨c.row + o, c.col⟩)) s a.2 with
    | error e => rw [h1] at h; simp at h
    | ok q =>
      obtain ⟨y, s1⟩ := q
      rw [h1] at h; simp at h
      obtain ⟨rfl, rfl⟩ := h
      rcases dive_first hF hS _ _ _ _ _ _ hs h1 with ⟨a1, a2⟩ | ⟨a1, p0, a2⟩
      · refine .inl ⟨a1, ?_⟩
        rintro ⟨p, z, b⟩ ⟨_, hr, hz, ht⟩
        rw [a2 p z b hr hz] at ht
        cases ht
      · refine .inr ⟨a1, p0, ?_⟩
        rintro ⟨p, z, b⟩ ⟨_, hr, hz, ht⟩
        exact a2 p z b hr hz ht
  · rename_i hc
    simp at h
    obtain ⟨rfl, rfl⟩ := h
    refine .inl ⟨hs, ?_⟩
    rintro e ⟨h0, _⟩
    simp at hc
    rcases h0 with h0 | h0
    · exact absurd hc.1 h0
    · rw [hc.2] at h0; cases h0

private def TSer (sel : Label → Bool) (depth : Option Int) (T : Option Coords → Doc → Bool) (B : Option Coords → Doc → Option Doc)
    (c : Nat) (bc : Option Coords) (cells : List (Label × Doc)) (q : Nat × Ev) : Prop :=
  depth ≠ some (c : Int) ∧ ∃ a, cells[q.1]? = some a ∧ TCell sel depth T B c bc (0 + q.1) a q.2

private def ASer (A : Option Coords → Doc → Option Doc) (cells : List (Label × Doc)) (q : Nat × Ev) : Prop :=
  ∃ b, cells[q.1]? = some b ∧ ACell A b q.2

private theorem series_spent (hS : Does step T Sp Sp B) (c : Nat) (bc : Option Coords) (s : σ) (a b : List (Label × Doc)) (s' : σ) (hs : Sp s)
    (h : diveSeries sel depth step c bc s a = .ok (b, s')) : Sp s' ∧ ∀ q, TSer sel depth T B c bc a q → ASer B b q := by
  unfold diveSeries at h
  split at h
  · rename_i hd
    simp at h
    obtain ⟨rfl, rfl⟩ := h
    exact ⟨hs, fun q hq => absurd hd hq.1⟩
  · obtain ⟨h1, h2⟩ := loop_spent (cell_spent hS c bc) a hs h
    exact ⟨h1, fun q hq => h2 q.1 q.2 hq.2⟩

private theorem series_first (hF : Does step T Fr Sp A) (hS : Does step T Sp Sp B) (c : Nat) (bc : Option Coords) (s : σ)
    (a b : List (Label × Doc)) (s' : σ) (hs : Fr s) (h : diveSeries sel depth step c bc s a = .ok (b, s')) :
    FirstAt Fr Sp (TSer sel depth T B c bc a) (fun q => (q.1, q.2.1)) (ASer A b) (ASer B b) s' := by
  unfold diveSeries at h
  split at h
  · rename_i hd
    simp at h
    obtain ⟨rfl, rfl⟩ := h
    exact .inl ⟨hs, fun q hq => absurd hd hq.1⟩
  · rcases loop_first (cell_first hF hS c bc) (cell_spent hS c bc) a hs h with ⟨h1, h2⟩ | ⟨h1, k0, h2⟩
    · exact .inl ⟨h1, fun q hq => h2 q hq.2⟩
    · exact .inr ⟨h1, k0, fun q hq => h2 q hq.2⟩

private def TCol (sel : Label → Bool) (depth : Option Int) (T : Option Coords → Doc → Bool) (B : Option Coords → Doc → Option Doc)
    (bc : Option Coords) (o : Nat) (a : Label × List (Label × Doc)) (q : Nat × Ev) : Prop :=
  sel a.1 = true ∧ TSer sel depth T B 1 (bc.map (fun c => ⟨c.row, c.col + o⟩)) a.2 q

private theorem col_spent (hS : Does step T Sp Sp B) (bc : Option Coords) (o : Nat) (s : σ) (a b : Label × List (Label × Doc)) (s' : σ)
    (hs : Sp s) (h : diveCol sel depth step bc o s a = .ok (b, s')) : Sp s' ∧ ∀ q, TCol sel depth T B bc o a q → ASer B b.2 q := by
  unfold diveCol at h
  split at h
  · cases h1 : diveSeries sel depth step 1 (bc.map (fun c => ⟨c.row, c.col + o⟩)) s a.2 with
    | error e => rw [h1] at h; simp at h
    | ok q =>
      obtain ⟨y, s1⟩ := q
      rw [h1] at h; simp at h
      obtain ⟨rfl, rfl⟩ := h
      obtain ⟨h2, h3⟩ := series_spent hS _ _ _ _ _ _ hs h1
      exact ⟨h2, fun q hq => h3 q hq.2⟩
  · rename_i hc
    simp at h
    obtain ⟨rfl, rfl⟩ := h
    exact ⟨hs, fun q hq => absurd hq.1 hc⟩

private theorem col_first (hF : Does step T Fr Sp A) (hS : Does step T Sp Sp B) (bc : Option Coords) (o : Nat) (s : σ)
    (a b : Label × List (Label × Doc)) (s' : σ) (hs : Fr s) (h : diveCol sel depth step bc o s a = .ok (b, s')) :
    FirstAt Fr Sp (TCol sel depth T B bc o a) (fun q => (q.1, q.2.1)) (ASer A b.2) (ASer B b.2) s' := by
  unfold diveCol at h
  split at h
  · cases h1 : diveSeries sel depth step 1 (bc.map (fun c => ⟨c.row, c.col + o⟩)) s a.2 with
    | error e => rw [h1] at h; simp at h
    | ok q =>
      obtain ⟨y, s1⟩ := q
      rw [h1] at h; simp at h
      obtain ⟨rfl, rfl⟩ := h
      rcases series_first hF hS _ _ _ _ _ _ hs h1 with ⟨h2, h3⟩ | ⟨h2, k0, h3⟩
      · exact .inl ⟨h2, fun q hq => h3 q hq.2⟩
      · exact .inr ⟨h2, k0, fun q hq => h3 q hq.2⟩
  · rename_i hc
    simp at h
    obtain ⟨rfl, rfl⟩ := h
    exact .inl ⟨hs, fun q hq => absurd hq.1 hc⟩

theorem diveTabled_first (hF : Does step T Fr Sp A) (hS : Does step T Sp Sp B) (st : Option Coords) (s : σ) (t t' : Tabled) (s' : σ)
    (hs : Fr s) (h : diveTabled sel depth step st s t = .ok (t', s')) :
    ∃ first : Nat × Nat × List VStep, ∀ i j x p z b, DivedInto sel depth t i j → TabledAt t i j x →
      reach (cellCfg sel depth) (askTook T B) (cellDepth t) (cellPos st i j) x p = some (z, b) → ¬ isDict z → T b z = true →
      ∃ w, TabledAt t' i j w ∧ ((i, j, p) = first → Answered A w p b z) ∧ ((i, j, p) ≠ first → Answered B w p b z) := by
  cases t with
  | series cells =>
    simp only [diveTabled] at h
    cases h1 : diveSeries sel depth step 0 st s cells with
    | error e => rw [h1] at h; simp at h
    | ok q =>
      obtain ⟨cells', s1⟩ := q
      rw [h1] at h; simp at h
      obtain ⟨rfl, rfl⟩ := h
      have conv : ∀ i j x p z b, DivedInto sel depth (.series cells) i j → TabledAt (.series cells) i j x →
          reach (cellCfg sel depth) (askTook T B) 1 (cellPos st i j) x p = some (z, b) → ¬ isDict z → T b z = true →
          j = 0 ∧ TSer sel depth T B 0 st cells (i, p, z, b) := by
        rintro i j x p z b ⟨k, hk, hsel, hn⟩ hc hr hz ht
        cases hc with
        | series _ _ k' _ hx =>
          cases hk with
          | series _ _ _ x' hx' =>
            rw [hx] at hx'; cases hx'
            refine ⟨rfl, hn 0 (by simp [cellDepth]), (k, x), hx, .inr hsel, ?_, hz, ht⟩
            simpa [cellPos] using hr
      rcases series_first hF hS _ _ _ _ _ _ hs h1 with ⟨_, h2⟩ | ⟨_, ⟨i0, p0⟩, h2⟩
      · exact ⟨(0, 0, []), fun i j x p z b hd hc hr hz ht => absurd (conv i j x p z b hd hc hr hz ht).2 (h2 _)⟩
      · refine ⟨(i0, 0, p0), ?_⟩
        intro i j x p z b hd hc hr hz ht
        obtain ⟨rfl, ht'⟩ := conv i j x p z b hd hc hr hz ht
        obtain ⟨h3, h4⟩ := h2 _ ht'
        obtain ⟨⟨k, w⟩, hw⟩ : ∃ a, cells'[i]? = some a := by
          by_cases he : (i, p) = (i0, p0)
          · obtain ⟨a, ha, _⟩ := h3 he; exact ⟨a, ha⟩
          · obtain ⟨a, ha, _⟩ := h4 he; exact ⟨a, ha⟩
        refine ⟨w, .series _ _ k _ hw, ?_, ?_⟩
        · intro he
          obtain ⟨a, ha, hb⟩ := h3 (by simp at he; simp [he])
          simp only at ha
          rw [hw] at ha; cases ha
          exact hb
        · intro he
          obtain ⟨a, ha, hb⟩ := h4 (by simp at he; simpa using he)
          simp only at ha
          rw [hw] at ha; cases ha
          exact hb
  | frame cols =>
    simp only [diveTabled] at h
    split at h
    · rename_i hd
      refine ⟨(0, 0, []), ?_⟩
      rintro i j x p z b ⟨k, _, _, hn⟩
      exact absurd hd (hn 0 (by simp [cellDepth]))
    cases h1 : loopItems (diveCol sel depth step st) 0 s cols with
    | error e => rw [h1] at h; simp at h
    | ok q =>
      obtain ⟨cols', s1⟩ := q
      rw [h1] at h; simp at h
      obtain ⟨rfl, rfl⟩ := h
      have conv : ∀ i j x p z b, DivedInto sel depth (.frame cols) i j → TabledAt (.frame cols) i j x →
          reach (cellCfg sel depth) (askTook T B) 2 (cellPos st i j) x p = some (z, b) → ¬ isDict z → T b z = true →
          ∃ a, cols[j]? = some a ∧ TCol sel depth T B st (0 + j) a (i, p, z, b) := by
        rintro i j x p z b ⟨k, hk, hsel, hn⟩ hc hr hz ht
        cases hc with
        | frame _ _ _ c' cells' k' _ hx hy =>
          cases hk with
          | frame _ _ _ _ cells hx' =>
            rw [hx] at hx'; cases hx'
            refine ⟨_, hx, hsel, hn 1 (by simp [cellDepth]), (k', x), hy, .inl (by simp), ?_, hz, ht⟩
            rw [← hr]
            simp only [Nat.zero_add]
            congr 1
            cases st <;> simp [cellPos]
      rcases loop_first (col_first hF hS st) (col_spent hS st) cols hs h1 with ⟨_, h2⟩ | ⟨_, ⟨j0, i0, p0⟩, h2⟩
      · exact ⟨(0, 0, []), fun i j x p z b hd hc hr hz ht => absurd (conv i j x p z b hd hc hr hz ht) (h2 (j, i, p, z, b))⟩
      · refine ⟨(i0, j0, p0), ?_⟩
        intro i j x p z b hd hc hr hz ht
        obtain ⟨h3, h4⟩ := h2 (j, i, p, z, b) (conv i j x p z b hd hc hr hz ht)
        simp only at h3 h4
        obtain ⟨⟨c, cells⟩, hcol, ⟨k, w⟩, hw⟩ : ∃ a, cols'[j]? = some a ∧ ∃ q, a.2[i]? = some q := by
          by_cases he : (j, i, p) = (j0, i0, p0)
          · obtain ⟨a, ha, q, hq, _⟩ := h3 he; exact ⟨a, ha, q, hq⟩
          · obtain ⟨a, ha, q, hq, _⟩ := h4 he; exact ⟨a, ha, q, hq⟩
        refine ⟨w, .frame _ _ _ c cells k _ hcol hw, ?_, ?_⟩
        · intro he
          obtain ⟨a, ha, q, hq, hb⟩ := h3 (by simp at he; simp [he])
          rw [hcol] at ha; cases ha
          simp only at hq hw
          rw [hw] at hq; cases hq
          exact hb
        · intro he
          obtain ⟨a, ha, q, hq, hb⟩ := h4 (by
            intro e; apply he; simp at e; simp [e])
          rw [hcol] at ha; cases ha
          simp only at hq hw
          rw [hw] at hq; cases hq
          exact hb

private theorem cell_ok (hI : Keeps step I) (c : Nat) (bc : Option Coords) (o : Nat) (s : σ) (a b : Label × Doc) (s' : σ) (hs : I s)
    (h : diveCell sel depth step c bc o s a = .ok (b, s')) : I s' ∧ a.1 = b.1 ∧
      ((c ≠ 0 ∨ sel a.1 = true) ∧ dive (cellCfg sel depth) step (c + 1) (bc.map (fun c => ⟨c.row + o, c.col⟩)) s a.2 = .ok (b.2, s') ∨
       ¬ (c ≠ 0 ∨ sel a.1 = true) ∧ a.2 = b.2) := by
  unfold diveCell at h
  split at h
  · rename_i hc
    cases h1 : dive (cellCfg sel depth) step (c + 1) (bc.map (fun c => ⟨c.row + o, c.col⟩)) s a.2 with
    | error e => rw [h1] at h; simp at h
    | ok q =>
      obtain ⟨y, s1⟩ := q
      rw [h1] at h; simp at h
      obtain ⟨rfl, rfl⟩ := h
      refine ⟨dive_inv hI _ _ _ _ _ _ hs h1, rfl, .inl ⟨by simpa using hc, rfl⟩⟩
  · rename_i hc
    simp at h
    obtain ⟨rfl, rfl⟩ := h
    exact ⟨hs, rfl, .inr ⟨by simpa using hc, rfl⟩⟩

private theorem series_ok (hI : Keeps step I) (c : Nat) (bc : Option Coords) (s : σ) (a b : List (Label × Doc)) (s' : σ) (hs : I s)
    (h : diveSeries sel depth step c bc s a = .ok (b, s')) : I s' ∧ a.map (·.1) = b.map (·.1) ∧
      ∀ (i : Nat) k x, a[i]? = some (k, x) → ∃ w, b[i]? = some (k, w) ∧
        (((depth ≠ some (c : Int) ∧ (c ≠ 0 ∨ sel k = true)) ∧ ∃ s1 s2, I s1 ∧
          dive (cellCfg sel depth) step (c + 1) (bc.map (fun c => ⟨c.row + i, c.col⟩)) s1 x = .ok (w, s2)) ∨
         (¬ (depth ≠ some (c : Int) ∧ (c ≠ 0 ∨ sel k = true)) ∧ x = w)) := by
  unfold diveSeries at h
  split at h
  · rename_i hd
    simp at h
    obtain ⟨rfl, rfl⟩ := h
    exact ⟨hs, rfl, fun i k x hx => ⟨x, hx, .inr ⟨fun hh => hh.1 hd, rfl⟩⟩⟩
  · rename_i hd
    obtain ⟨h1, h2, h3⟩ := loop_ok (I := I) (fun o s a b s' hs h => (cell_ok hI c bc o s a b s' hs h).1) a hs h
    have h4 : ∀ (i : Nat) k x, a[i]? = some (k, x) → ∃ w, b[i]? = some (k, w) ∧
        ((c ≠ 0 ∨ sel k = true) ∧ (∃ s1 s2, I s1 ∧
          dive (cellCfg sel depth) step (c + 1) (bc.map (fun c => ⟨c.row + i, c.col⟩)) s1 x = .ok (w, s2)) ∨
         ¬ (c ≠ 0 ∨ sel k = true) ∧ x = w) := by
      intro i k x hx
      obtain ⟨s1, s2, ⟨k', w⟩, h5, h6, h7⟩ := h3 i (k, x) hx
      obtain ⟨_, h8, h9⟩ := cell_ok hI c bc _ s1 _ _ s2 h5 h6
      simp only at h8; subst h8
      refine ⟨w, h7, ?_⟩
      rw [Nat.zero_add] at h9
      rcases h9 with h9 | h9
      · exact .inl ⟨h9.1, s1, s2, h5, h9.2⟩
      · exact .inr h9
    refine ⟨h1, ?_, ?_⟩
    · apply List.ext_getElem?
      intro i
      simp only [List.getElem?_map]
      cases hx : a[i]? with
      | none =>
        have : b[i]? = none := by
          rw [List.getElem?_eq_none_iff] at hx ⊢
          omega
        simp [this]
      | some q =>
        obtain ⟨k, x⟩ := q
        obtain ⟨w, hw, _⟩ := h4 i k x hx
        simp [hw]
    · intro i k x hx
      obtain ⟨w, hw, hh⟩ := h4 i k x hx
      refine ⟨w, hw, ?_⟩
      rcases hh with hh | hh
      · exact .inl ⟨⟨hd, hh.1⟩, hh.2⟩
      · exact .inr ⟨fun h => hh.1 h.2, hh.2⟩

private theorem col_ok (hI : Keeps step I) (bc : Option Coords) (o : Nat) (s : σ) (a b : Label × List (Label × Doc)) (s' : σ) (hs : I s)
    (h : diveCol sel depth step bc o s a = .ok (b, s')) : I s' ∧ a.1 = b.1 ∧ a.2.map (·.1) = b.2.map (·.1) ∧
      ∀ (i : Nat) k x, a.2[i]? = some (k, x) → ∃ w, b.2[i]? = some (k, w) ∧
        (((depth ≠ some 1 ∧ sel a.1 = true) ∧ ∃ s1 s2, I s1 ∧
          dive (cellCfg sel depth) step 2 (cellPos bc i o) s1 x = .ok (w, s2)) ∨
         (¬ (depth ≠ some 1 ∧ sel a.1 = true) ∧ x = w)) := by
  unfold diveCol at h
  split at h
  · rename_i hc
    cases h1 : diveSeries sel depth step 1 (bc.map (fun c => ⟨c.row, c.col + o⟩)) s a.2 with
    | error e => rw [h1] at h; simp at h
    | ok q =>
      obtain ⟨y, s1⟩ := q
      rw [h1] at h; simp at h
      obtain ⟨rfl, rfl⟩ := h
      obtain ⟨h2, h3, h4⟩ := series_ok hI _ _ _ _ _ _ hs h1
      refine ⟨h2, rfl, h3, ?_⟩
      intro i k x hx
      obtain ⟨w, hw, hh⟩ := h4 i k x hx
      refine ⟨w, hw, ?_⟩
      rcases hh with ⟨hh, s1, s2, h5, h6⟩ | hh
      · refine .inl ⟨⟨by simpa using hh.1, hc⟩, s1, s2, h5, ?_⟩
        rw [← h6]
        congr 1
        cases bc <;> simp [cellPos]
      · exact .inr ⟨fun h => hh.1 ⟨by simpa using h.1, .inl (by simp)⟩, hh.2⟩
  · rename_i hc
    simp at h
    obtain ⟨rfl, rfl⟩ := h
    exact ⟨hs, rfl, rfl, fun i k x hx => ⟨x, hx, .inr ⟨fun h => hc h.2, rfl⟩⟩⟩

theorem diveTabled_ok (hI : Keeps step I) (st : Option Coords) (s : σ) (t t' : Tabled) (s' : σ) (hs : I s)
    (h : diveTabled sel depth step st s t = .ok (t', s')) : SameLabels t t' ∧ ∀ i j x, TabledAt t i j x → ∃ w, TabledAt t' i j w ∧
      ((DivedInto sel depth t i j ∧ ∃ s1 s2, I s1 ∧
          dive (cellCfg sel depth) step (cellDepth t) (cellPos st i j) s1 x = .ok (w, s2)) ∨
       (¬ DivedInto sel depth t i j ∧ x = w)) := by
  cases t with
  | series cells =>
    simp only [diveTabled] at h
    cases h1 : diveSeries sel depth step 0 st s cells with
    | error e => rw [h1] at h; simp at h
    | ok q =>
      obtain ⟨cells', s1⟩ := q
      rw [h1] at h; simp at h
      obtain ⟨rfl, rfl⟩ := h
      obtain ⟨_, h3, h4⟩ := series_ok hI _ _ _ _ _ _ hs h1
      refine ⟨h3, ?_⟩
      rintro i j x hc
      cases hc with
      | series _ _ k _ hx =>
        obtain ⟨w, hw, hh⟩ := h4 i k x hx
        refine ⟨w, .series _ _ k _ hw, ?_⟩
        rcases hh with ⟨hh, s1, s2, h5, h6⟩ | hh
        · refine .inl ⟨⟨k, .series _ _ _ _ hx, by simpa using hh.2, ?_⟩, s1, s2, h5, ?_⟩
          · intro n hn
            have : n = 0 := by simp [cellDepth] at hn; exact hn
            subst this
            exact hh.1
          · rw [← h6]
            simp [cellPos, cellDepth]
        · refine .inr ⟨?_, hh.2⟩
          rintro ⟨k', hk, hsel, hn⟩
          cases hk with
          | series _ _ _ x' hx' =>
            rw [hx] at hx'; cases hx'
            exact hh.1 ⟨hn 0 (by simp [cellDepth]), .inr hsel⟩
  | frame cols =>
    simp only [diveTabled] at h
    split at h
    · rename_i hd
      simp at h
      obtain ⟨rfl, rfl⟩ := h
      refine ⟨rfl, fun i j x hx => ⟨x, hx, .inr ⟨?_, rfl⟩⟩⟩
      rintro ⟨k, _, _, hn⟩
      exact hn 0 (by simp [cellDepth]) hd
    rename_i hd
    cases h1 : loopItems (diveCol sel depth step st) 0 s cols with
    | error e => rw [h1] at h; simp at h
    | ok q =>
      obtain ⟨cols', s1⟩ := q
      rw [h1] at h; simp at h
      obtain ⟨rfl, rfl⟩ := h
      obtain ⟨_, h2, h3⟩ := loop_ok (I := I) (fun o s a b s' hs h => (col_ok hI st o s a b s' hs h).1) cols hs h1
      have h4 : ∀ j a, cols[j]? = some a → ∃ b, cols'[j]? = some b ∧ a.1 = b.1 ∧ a.2.map (·.1) = b.2.map (·.1) ∧
          ∀ (i : Nat) k x, a.2[i]? = some (k, x) → ∃ w, b.2[i]? = some (k, w) ∧
            (((depth ≠ some 1 ∧ sel a.1 = true) ∧ ∃ s1 s2, I s1 ∧
              dive (cellCfg sel depth) step 2 (cellPos st i j) s1 x = .ok (w, s2)) ∨
             (¬ (depth ≠ some 1 ∧ sel a.1 = true) ∧ x = w)) := by
        intro j a ha
        obtain ⟨s1, s2, b, h5, h6, h7⟩ := h3 j a ha
        obtain ⟨_, h8⟩ := col_ok hI st _ s1 _ _ s2 h5 h6
        rw [Nat.zero_add] at h8
        exact ⟨b, h7, h8⟩
      refine ⟨?_, ?_⟩
      · show cols.map _ = cols'.map _
        apply List.ext_getElem?
        intro j
        simp only [List.getElem?_map]
        cases hx : cols[j]? with
        | none =>
          have : cols'[j]? = none := by
            rw [List.getElem?_eq_none_iff] at hx ⊢
            omega
          simp [this]
        | some a =>
          obtain ⟨b, hb, h5, h6, _⟩ := h4 j a hx
          simp [hb, h5, h6]
      · rintro i j x hc
        cases hc with
        | frame _ _ _ c cells k _ hx hy =>
          obtain ⟨⟨c', cells'⟩, hb, h5, _, h6⟩ := h4 j (c, cells) hx
          obtain ⟨w, hw, hh⟩ := h6 i k x hy
          refine ⟨w, .frame _ _ _ c' cells' k _ hb hw, ?_⟩
          rcases hh with ⟨hh, s1, s2, h7, h8⟩ | hh
          · refine .inl ⟨⟨c, .frame _ _ _ _ cells hx, hh.2, ?_⟩, s1, s2, h7, h8⟩
            intro n hn
            have : n = 0 ∨ n = 1 := by simp [cellDepth] at hn; omega
            rcases this with rfl | rfl
            · exact hd
            · exact hh.1
          · refine .inr ⟨?_, hh.2⟩
            rintro ⟨k', hk, hsel, hn⟩
            cases hk with
            | frame _ _ _ _ cells2 hx' =>
              rw [hx] at hx'; cases hx'
              exact hh.1 ⟨hn 1 (by simp [cellDepth]), hsel⟩

private theorem series_error (hI : Keeps step I) (c : Nat) (bc : Option Coords) (s : σ) (a : List (Label × Doc)) (e : PyErr) (hs : I s)
    (h : diveSeries sel depth step c bc s a = .error e) : depth ≠ some (c : Int) ∧ ∃ (i : Nat) (k : Label) (x : Doc) (s1 : σ),
      a[i]? = some (k, x) ∧ (c ≠ 0 ∨ sel k = true) ∧ I s1 ∧
        dive (cellCfg sel depth) step (c + 1) (bc.map (fun c => ⟨c.row + i, c.col⟩)) s1 x = .error e := by
  unfold diveSeries at h
  split at h
  · simp at h
  · rename_i hd
    refine ⟨hd, ?_⟩
    obtain ⟨i, ⟨k, x⟩, s1, h1, h2, h3⟩ := loop_error (I := I) (fun o s a b s' hs h => (cell_ok hI c bc o s a b s' hs h).1) a hs h
    refine ⟨i, k, x, s1, h1, ?_⟩
    rw [Nat.zero_add] at h3
    unfold diveCell at h3
    split at h3
    · rename_i hc
      refine ⟨by simpa using hc, h2, ?_⟩
      simp only at h3
      split at h3
      · rename_i h4
        injection h3 with h3
        subst h3
        exact h4
      · cases h3
    · cases h3

theorem diveTabled_error (hI : Keeps step I) (st : Option Coords) (s : σ) (t : Tabled) (e : PyErr) (hs : I s)
    (h : diveTabled sel depth step st s t = .error e) : ∃ i j x s1, TabledAt t i j x ∧ DivedInto sel depth t i j ∧ I s1 ∧
      dive (cellCfg sel depth) step (cellDepth t) (cellPos st i j) s1 x = .error e := by
  cases t with
  | series cells =>
    simp only [diveTabled] at h
    cases h1 : diveSeries sel depth step 0 st s cells with
    | ok q => rw [h1] at h; simp at h
    | error e' =>
      rw [h1] at h; simp at h; subst h
      obtain ⟨hd, i, k, x, s1, h2, h3, h4, h5⟩ := series_error hI _ _ _ _ _ hs h1
      refine ⟨i, 0, x, s1, .series _ _ k _ h2, ⟨k, .series _ _ _ _ h2, by simpa using h3, ?_⟩, h4, ?_⟩
      · intro n hn
        have : n = 0 := by simp [cellDepth] at hn; exact hn
        subst this
        exact hd
      · rw [← h5]
        simp [cellPos, cellDepth]
  | frame cols =>
    simp only [diveTabled] at h
    split at h
    · simp at h
    rename_i hd
    cases h1 : loopItems (diveCol sel depth step st) 0 s cols with
    | ok q => rw [h1] at h; simp at h
    | error e' =>
      rw [h1] at h; simp at h; subst h
      obtain ⟨j, ⟨c, cells⟩, s1, h2, h3, h4⟩ := loop_error (I := I) (fun o s a b s' hs h => (col_ok hI st o s a b s' hs h).1) cols hs h1
      rw [Nat.zero_add] at h4
      unfold diveCol at h4
      split at h4
      · rename_i hsel
        simp only at h4
        split at h4
        · rename_i h5
          injection h4 with h4
          subst h4
          obtain ⟨hd1, i, k, x, s2, h6, _, h7, h8⟩ := series_error hI _ _ _ _ _ h3 h5
          refine ⟨i, j, x, s2, .frame _ _ _ c cells k _ h2 h6, ⟨c, .frame _ _ _ _ cells h2, hsel, ?_⟩, h7, ?_⟩
          · intro n hn
            have : n = 0 ∨ n = 1 := by simp [cellDepth] at hn; omega
            rcases this with rfl | rfl
            · exact hd
            · exact hd1
          · rw [← h8]
            congr 1
            cases st <;> simp [cellPos]
        · cases h4
      · cases h4

end

end Lemmas
