import Verif.Lemmas.Dive
/-
Lemmas about `dive` when the first element that is processed changes what is done with the others.
-/
namespace Lemmas
open Py Model Spec

/-- The answer as the values that are reached depend on it: whether there is one. -/
def askTook (T : Option Coords → Doc → Bool) (B : Option Coords → Doc → Option Doc) (bc : Option Coords) (d : Doc) : Option Doc :=
  if T bc d then some ((B bc d).getD .null) else none

section
variable {σ : Type} {cfg : DiveCfg} {step : σ → Option Coords → Doc → Except PyErr (Option Doc × σ)}
variable {T : Option Coords → Doc → Bool} {A B : Option Coords → Doc → Option Doc} {Fr Sp : σ → Prop}

/-- What is done in a state, and the states after it. -/
def Does (step : σ → Option Coords → Doc → Except PyErr (Option Doc × σ)) (T : Option Coords → Doc → Bool) (In Out : σ → Prop)
    (A : Option Coords → Doc → Option Doc) : Prop :=
  ∀ s bc d o s', In s → step s bc d = .ok (o, s') →
    (T bc d = false ∧ o = none ∧ In s') ∨ (T bc d = true ∧ o = A bc d ∧ o ≠ none ∧ Out s')

/-- The value there is the answer. -/
def Answered (A : Option Coords → Doc → Option Doc) (r : Doc) (p : List VStep) (b : Option Coords) (x : Doc) : Prop :=
  ∃ y, A b x = some y ∧ valAt r p = some y

theorem dive_spent (hS : Does step T Sp Sp B) (p : List VStep) {c : Nat} {bc : Option Coords} {s s' : σ} {v r x : Doc}
    {b : Option Coords} (hs : Sp s) (h : dive cfg step c bc s v = .ok (r, s')) (hr : reach cfg (askTook T B) c bc v p = some (x, b))
    (hd : ¬ isDict x) (ht : T b x = true) : Answered B r p b x := by
  have hI : Keeps step Sp := by
    intro s bc d o s' hs h
    rcases hS s bc d o s' hs h with h | h
    · exact h.2.2
    · exact h.2.2.2
  have hA : Answers step Sp (askTook T B) := by
    intro s bc d o s' hs h
    rcases hS s bc d o s' hs h with h | h
    · simp [askTook, h.1, h.2.1]
    · obtain ⟨h1, h2, h3, _⟩ := h
      cases o with
      | none => exact absurd rfl h3
      | some y => simp [askTook, h1, ← h2]
  obtain ⟨s1, o, s2, hs1, ho⟩ := dive_reached_ok hI hA.toIf p hs h hr hd
  have hv := dive_processed hI hA p hs h hr hd (y := (B b x).getD .null) (by simp [askTook, ht])
  rcases hS s1 b x o s2 hs1 ho with h | h
  · rw [ht] at h; simp at h
  · obtain ⟨_, h2, h3, _⟩ := h
    cases o with
    | none => exact absurd rfl h3
    | some y => exact ⟨y, h2.symm, by rw [hv, ← h2]; rfl⟩

theorem Does.keeps (hS : Does step T Sp Sp B) : Keeps step Sp := by
  intro s bc d o s' hs h
  rcases hS s bc d o s' hs h with h | h
  · exact h.2.2
  · exact h.2.2.2

/-- Nothing is processed, or one element as the first and the others after it. -/
def FirstOnly (cfg : DiveCfg) (T : Option Coords → Doc → Bool) (A B : Option Coords → Doc → Option Doc) (Fr Sp : σ → Prop)
    (c : Nat) (bc : Option Coords) (d r : Doc) (s' : σ) : Prop :=
  (Fr s' ∧ ∀ p x b, reach cfg (askTook T B) c bc d p = some (x, b) → ¬ isDict x → T b x = false) ∨
  (Sp s' ∧ ∃ p0, ∀ p x b, reach cfg (askTook T B) c bc d p = some (x, b) → ¬ isDict x → T b x = true →
    (p = p0 → Answered A r p b x) ∧ (p ≠ p0 → Answered B r p b x))

theorem diveLeaf_first (hF : Does step T Fr Sp A) (c : Nat) (bc : Option Coords) (s : σ) (d r : Doc) (s' : σ)
    (hl : ∀ xs, d ≠ .list xs) (hdi : ¬ isDict d) (hs : Fr s)
    (h : diveLeaf cfg step c bc s d = .ok (r, s')) : FirstOnly cfg T A B Fr Sp c bc d r s' := by
  have hreach : ∀ p x b, reach cfg (askTook T B) c bc d p = some (x, b) → cfg.depth ≠ some (c : Int) ∧ p = [] ∧ x = d ∧ b = bc := by
    intro p x b hr
    cases p with
    | nil =>
      simp only [reach] at hr
      split at hr
      · simp at hr
      · rename_i hdep
        simp at hr
        exact ⟨hdep, rfl, hr.1.symm, hr.2.symm⟩
    | cons a p =>
      simp only [reach] at hr
      split at hr
      · simp at hr
      · cases d <;> cases a <;> simp only [reduceCtorEq] at hr
        · exact absurd rfl (hl _)
        · exact absurd trivial hdi
  unfold diveLeaf at h
  split at h
  · rename_i hdep
    simp at h
    obtain ⟨rfl, rfl⟩ := h
    exact .inl ⟨hs, fun p x b hr _ => absurd hdep (hreach p x b hr).1⟩
  · cases h1 : step s bc d with
    | error e => rw [h1] at h; simp at h
    | ok q =>
      obtain ⟨o, s1⟩ := q
      rw [h1] at h
      rcases hF s bc d o s1 hs h1 with ⟨a1, a2, a3⟩ | ⟨a1, a2, a3, a4⟩
      · subst a2
        simp at h
        obtain ⟨rfl, rfl⟩ := h
        refine .inl ⟨a3, ?_⟩
        intro p x b hr _
        obtain ⟨_, _, rfl, rfl⟩ := hreach p x b hr
        exact a1
      · cases o with
        | none => exact absurd rfl a3
        | some y =>
          simp at h
          obtain ⟨rfl, rfl⟩ := h
          refine .inr ⟨a4, [], ?_⟩
          intro p x b hr _ _
          obtain ⟨_, rfl, rfl, rfl⟩ := hreach p x b hr
          exact ⟨fun _ => ⟨y, a2.symm, rfl⟩, fun hn => absurd rfl hn⟩

mutual
theorem dive_first (hF : Does step T Fr Sp A) (hS : Does step T Sp Sp B) (c : Nat) (bc : Option Coords) (s : σ) (d r : Doc) (s' : σ)
    (hs : Fr s) (h : dive cfg step c bc s d = .ok (r, s')) : FirstOnly cfg T A B Fr Sp c bc d r s' := by
  cases d with
  | dict kvs =>
    by_cases hdep : cfg.depth = some (c : Int)
    · rw [dive_stop _ hdep] at h
      simp at h
      obtain ⟨rfl, rfl⟩ := h
      refine .inl ⟨hs, ?_⟩
      intro p x b hr
      cases p <;> simp [reach, hdep] at hr
    · obtain ⟨kvs', rfl, hl⟩ := dive_dict kvs hdep h
      rcases diveItems_first hF hS c s kvs kvs' s' hs hl with ⟨a1, a2⟩ | ⟨a1, k0, p0, a2⟩
      · refine .inl ⟨a1, ?_⟩
        intro p x b hr hx
        cases p with
        | nil =>
          simp [reach, hdep] at hr
          rw [← hr.1] at hx
          exact absurd trivial hx
        | cons a p =>
          cases a with
          | idx i => simp [reach, hdep] at hr
          | key k =>
            simp only [reach, if_neg hdep] at hr
            split at hr
            · rename_i hsel
              cases hi : dget kvs k with
              | none => rw [hi] at hr; simp at hr
              | some z =>
                rw [hi] at hr; simp only [Option.bind_some] at hr
                exact a2 k z hi hsel p x b hr hx
            · simp at hr
      · refine .inr ⟨a1, .key k0 :: p0, ?_⟩
        intro p x b hr hx ht
        cases p with
        | nil =>
          simp [reach, hdep] at hr
          rw [← hr.1] at hx
          exact absurd trivial hx
        | cons a p =>
          cases a with
          | idx i => simp [reach, hdep] at hr
          | key k =>
            simp only [reach, if_neg hdep] at hr
            split at hr
            · rename_i hsel
              cases hi : dget kvs k with
              | none => rw [hi] at hr; simp at hr
              | some z =>
                rw [hi] at hr; simp only [Option.bind_some] at hr
                obtain ⟨w, hw, b1, b2⟩ := a2 k z hi hsel p x b hr hx ht
                refine ⟨?_, ?_⟩
                · intro he
                  simp only [List.cons.injEq, VStep.key.injEq] at he
                  obtain ⟨y, y1, y2⟩ := b1 he
                  exact ⟨y, y1, by simp [valAt, stepIn, hw, y2]⟩
                · intro he
                  obtain ⟨y, y1, y2⟩ := b2 (by rintro ⟨rfl, rfl⟩; exact he rfl)
                  exact ⟨y, y1, by simp [valAt, stepIn, hw, y2]⟩
            · simp at hr
  | list xs =>
    by_cases hdep : cfg.depth = some (c : Int)
    · rw [dive_stop _ hdep] at h
      simp at h
      obtain ⟨rfl, rfl⟩ := h
      refine .inl ⟨hs, ?_⟩
      intro p x b hr
      cases p <;> simp [reach, hdep] at hr
    · unfold dive at h
      rw [if_neg hdep] at h
      cases h1 : step s bc (.list xs) with
      | error e => rw [h1] at h; simp at h
      | ok q =>
        obtain ⟨o, s1⟩ := q
        rw [h1] at h
        rcases hF s bc (.list xs) o s1 hs h1 with ⟨a1, a2, a3⟩ | ⟨a1, a2, a3, a4⟩
        · subst a2
          simp only at h
          cases hl : diveList cfg step c bc 0 s1 xs with
          | error e => rw [hl] at h; simp at h
          | ok q =>
            obtain ⟨ys, s2⟩ := q
            rw [hl] at h; simp only [Except.ok.injEq, Prod.mk.injEq] at h
            obtain ⟨rfl, rfl⟩ := h
            rcases diveList_first hF hS c bc 0 s1 xs ys s2 a3 hl with ⟨b1, b2⟩ | ⟨b1, j0, p0, b2⟩
            · refine .inl ⟨b1, ?_⟩
              intro p x b hr hx
              cases p with
              | nil =>
                simp [reach, hdep] at hr
                obtain ⟨rfl, rfl⟩ := hr
                exact a1
              | cons a p =>
                cases a with
                | key k => simp [reach, hdep] at hr
                | idx i =>
                  simp only [reach, if_neg hdep] at hr
                  split at hr
                  · cases hi : xs[i]? with
                    | none => rw [hi] at hr; simp at hr
                    | some z =>
                      rw [hi] at hr; simp only [Option.bind_some] at hr
                      exact b2 i z hi p x b (by rw [Nat.zero_add]; exact hr) hx
                  · simp at hr
            · refine .inr ⟨b1, .idx j0 :: p0, ?_⟩
              intro p x b hr hx ht
              cases p with
              | nil =>
                simp [reach, hdep] at hr
                obtain ⟨rfl, rfl⟩ := hr
                rw [a1] at ht; simp at ht
              | cons a p =>
                cases a with
                | key k => simp [reach, hdep] at hr
                | idx i =>
                  simp only [reach, if_neg hdep] at hr
                  split at hr
                  · cases hi : xs[i]? with
                    | none => rw [hi] at hr; simp at hr
                    | some z =>
                      rw [hi] at hr; simp only [Option.bind_some] at hr
                      obtain ⟨w, hw, c1, c2⟩ := b2 i z hi p x b (by rw [Nat.zero_add]; exact hr) hx ht
                      refine ⟨?_, ?_⟩
                      · intro he
                        simp only [List.cons.injEq, VStep.idx.injEq] at he
                        obtain ⟨y, y1, y2⟩ := c1 he
                        exact ⟨y, y1, by simp [valAt, stepIn, hw, y2]⟩
                      · intro he
                        obtain ⟨y, y1, y2⟩ := c2 (by rintro ⟨rfl, rfl⟩; exact he rfl)
                        exact ⟨y, y1, by simp [valAt, stepIn, hw, y2]⟩
                  · simp at hr
        · cases o with
          | none => exact absurd rfl a3
          | some y =>
            simp at h
            obtain ⟨rfl, rfl⟩ := h
            refine .inr ⟨a4, [], ?_⟩
            intro p x b hr hx ht
            cases p with
            | nil =>
              simp [reach, hdep] at hr
              obtain ⟨rfl, rfl⟩ := hr
              exact ⟨fun _ => ⟨y, a2.symm, rfl⟩, fun hn => absurd rfl hn⟩
            | cons a p =>
              cases a with
              | key k => simp [reach, hdep] at hr
              | idx i => simp [reach, hdep, askTook, a1] at hr
  | null => exact diveLeaf_first hF c bc s _ r s' (by simp) (by simp [isDict]) hs (by simpa [dive] using h)
  | bool b => exact diveLeaf_first hF c bc s _ r s' (by simp) (by simp [isDict]) hs (by simpa [dive] using h)
  | int b => exact diveLeaf_first hF c bc s _ r s' (by simp) (by simp [isDict]) hs (by simpa [dive] using h)
  | atom b => exact diveLeaf_first hF c bc s _ r s' (by simp) (by simp [isDict]) hs (by simpa [dive] using h)
  | str b => exact diveLeaf_first hF c bc s _ r s' (by simp) (by simp [isDict]) hs (by simpa [dive] using h)

theorem diveList_first (hF : Does step T Fr Sp A) (hS : Does step T Sp Sp B) (c : Nat) (bc : Option Coords) (i : Nat) (s : σ)
    (xs ys : List Doc) (s' : σ) (hs : Fr s) (h : diveList cfg step c bc i s xs = .ok (ys, s')) :
    (Fr s' ∧ ∀ (j : Nat) z, xs[j]? = some z → ∀ p x b,
      reach cfg (askTook T B) (c + 1) (updBase cfg.pandas c bc (i + j)) z p = some (x, b) → ¬ isDict x → T b x = false) ∨
    (Sp s' ∧ ∃ (j0 : Nat) (p0 : List VStep), ∀ (j : Nat) z, xs[j]? = some z → ∀ p x b,
      reach cfg (askTook T B) (c + 1) (updBase cfg.pandas c bc (i + j)) z p = some (x, b) → ¬ isDict x → T b x = true →
      ∃ w, ys[j]? = some w ∧ ((j = j0 ∧ p = p0) → Answered A w p b x) ∧ (¬ (j = j0 ∧ p = p0) → Answered B w p b x)) := by
  cases xs with
  | nil => simp [diveList] at h; obtain ⟨rfl, rfl⟩ := h; left; exact ⟨hs, by simp⟩
  | cons z0 xs =>
    unfold diveList at h
    cases h1 : dive cfg step (c + 1) (updBase cfg.pandas c bc i) s z0 with
    | error e => rw [h1] at h; simp at h
    | ok q =>
      obtain ⟨y, s1⟩ := q
      rw [h1] at h; simp only at h
      cases h2 : diveList cfg step c bc (i + 1) s1 xs with
      | error e => rw [h2] at h; simp at h
      | ok q =>
        obtain ⟨ys', s2⟩ := q
        rw [h2] at h; simp only [Except.ok.injEq, Prod.mk.injEq] at h
        obtain ⟨rfl, rfl⟩ := h
        rcases dive_first hF hS (c + 1) _ s z0 y s1 hs h1 with ⟨a1, a2⟩ | ⟨a1, p0, a2⟩
        · rcases diveList_first hF hS c bc (i + 1) s1 xs ys' s2 a1 h2 with ⟨b1, b2⟩ | ⟨b1, j0, p0, b2⟩
          · refine .inl ⟨b1, ?_⟩
            intro j z hz p x b hr hx
            cases j with
            | zero => simp at hz; subst hz; exact a2 p x b hr hx
            | succ j =>
              simp at hz
              exact b2 j z hz p x b (by rw [show i + 1 + j = i + (j + 1) by omega]; exact hr) hx
          · refine .inr ⟨b1, j0 + 1, p0, ?_⟩
            intro j z hz p x b hr hx ht
            cases j with
            | zero =>
              simp at hz; subst hz
              rw [a2 p x b hr hx] at ht; simp at ht
            | succ j =>
              simp at hz
              obtain ⟨w, hw, c1, c2⟩ := b2 j z hz p x b (by rw [show i + 1 + j = i + (j + 1) by omega]; exact hr) hx ht
              refine ⟨w, by simpa using hw, ?_, ?_⟩
              · rintro ⟨e1, e2⟩; exact c1 ⟨by omega, e2⟩
              · intro hn; exact c2 (by rintro ⟨e1, e2⟩; exact hn ⟨by omega, e2⟩)
        · have hks := hS.keeps
          refine .inr ⟨diveList_inv hks c bc (i + 1) s1 xs ys' s2 a1 h2, 0, p0, ?_⟩
          intro j z hz p x b hr hx ht
          cases j with
          | zero =>
            simp at hz; subst hz
            obtain ⟨c1, c2⟩ := a2 p x b hr hx ht
            refine ⟨y, rfl, ?_, ?_⟩
            · rintro ⟨_, e⟩; exact c1 e
            · intro hn; exact c2 (by intro e; exact hn ⟨rfl, e⟩)
          | succ j =>
            simp at hz
            obtain ⟨t1, t2, w, ht1, hw, hy⟩ := (diveList_ok hks xs a1 h2).2 j z hz
            refine ⟨w, by simpa using hy, ?_, ?_⟩
            · rintro ⟨e, _⟩; omega
            · intro _
              exact dive_spent hS p ht1 hw (by rw [show i + 1 + j = i + (j + 1) by omega]; exact hr) hx ht

theorem diveItems_first (hF : Does step T Fr Sp A) (hS : Does step T Sp Sp B) (c : Nat) (s : σ)
    (kvs kvs' : List (Str × Doc)) (s' : σ) (hs : Fr s)
    (h : diveItems cfg step c s kvs = .ok (kvs', s')) :
    (Fr s' ∧ ∀ k z, dget kvs k = some z → cfg.sel k = true → ∀ p x b,
      reach cfg (askTook T B) (c + 1) none z p = some (x, b) → ¬ isDict x → T b x = false) ∨
    (Sp s' ∧ ∃ (k0 : Str) (p0 : List VStep), ∀ k z, dget kvs k = some z → cfg.sel k = true → ∀ p x b,
      reach cfg (askTook T B) (c + 1) none z p = some (x, b) → ¬ isDict x → T b x = true →
      ∃ w, dget kvs' k = some w ∧ ((k = k0 ∧ p = p0) → Answered A w p b x) ∧ (¬ (k = k0 ∧ p = p0) → Answered B w p b x)) := by
  cases kvs with
  | nil => simp [diveItems] at h; obtain ⟨rfl, rfl⟩ := h; left; exact ⟨hs, by simp [dget]⟩
  | cons q kvs =>
    obtain ⟨k1, z1⟩ := q
    unfold diveItems at h
    by_cases hsel : cfg.sel k1 = true
    · rw [if_pos hsel] at h
      cases h1 : dive cfg step (c + 1) none s z1 with
      | error e => rw [h1] at h; simp at h
      | ok q =>
        obtain ⟨y, s1⟩ := q
        rw [h1] at h; simp only at h
        cases h2 : diveItems cfg step c s1 kvs with
        | error e => rw [h2] at h; simp at h
        | ok q =>
          obtain ⟨ys, s2⟩ := q
          rw [h2] at h; simp only [Except.ok.injEq, Prod.mk.injEq] at h
          obtain ⟨rfl, rfl⟩ := h
          rcases dive_first hF hS (c + 1) none s z1 y s1 hs h1 with ⟨a1, a2⟩ | ⟨a1, p0, a2⟩
          · rcases diveItems_first hF hS c s1 kvs ys s2 a1 h2 with ⟨b1, b2⟩ | ⟨b1, k0, p0, b2⟩
            · refine .inl ⟨b1, ?_⟩
              intro k z hz hsk p x b hr hx
              unfold dget at hz
              split at hz
              · simp at hz; subst hz; exact a2 p x b hr hx
              · exact b2 k z hz hsk p x b hr hx
            · refine .inr ⟨b1, k0, p0, ?_⟩
              intro k z hz hsk p x b hr hx ht
              unfold dget at hz
              split at hz
              · simp at hz; subst hz; rw [a2 p x b hr hx] at ht; simp at ht
              · rename_i hne
                obtain ⟨w, hw, c⟩ := b2 k z hz hsk p x b hr hx ht
                exact ⟨w, by simp [dget, hne, hw], c⟩
          · have hks := hS.keeps
            refine .inr ⟨diveItems_inv hks c s1 kvs ys s2 a1 h2, k1, p0, ?_⟩
            intro k z hz hsk p x b hr hx ht
            unfold dget at hz
            split at hz
            · rename_i he
              simp at hz; subst hz; subst he
              obtain ⟨c1, c2⟩ := a2 p x b hr hx ht
              refine ⟨y, by simp [dget], ?_, ?_⟩
              · rintro ⟨_, e⟩; exact c1 e
              · intro hn; exact c2 (by intro e; exact hn ⟨rfl, e⟩)
            · rename_i hne
              obtain ⟨t1, t2, w, ht1, hw, hy⟩ := ((diveItems_ok hks kvs a1 h2).2 k z hz).1 hsk
              refine ⟨w, by simp [dget, hne, hy], ?_, ?_⟩
              · rintro ⟨e, _⟩; exact absurd e.symm hne
              · intro _
                exact dive_spent hS p ht1 hw hr hx ht
    · rw [if_neg hsel] at h
      cases h2 : diveItems cfg step c s kvs with
      | error e => rw [h2] at h; simp at h
      | ok q =>
        obtain ⟨ys, s2⟩ := q
        rw [h2] at h; simp only [Except.ok.injEq, Prod.mk.injEq] at h
        obtain ⟨rfl, rfl⟩ := h
        rcases diveItems_first hF hS c s kvs ys s2 hs h2 with ⟨b1, b2⟩ | ⟨b1, k0, p0, b2⟩
        · refine .inl ⟨b1, ?_⟩
          intro k z hz hsk
          unfold dget at hz
          split at hz
          · rename_i he; subst he; exact absurd hsk hsel
          · exact b2 k z hz hsk
        · refine .inr ⟨b1, k0, p0, ?_⟩
          intro k z hz hsk p x b hr hx ht
          unfold dget at hz
          split at hz
          · rename_i he; subst he; exact absurd hsk hsel
          · rename_i hne
            obtain ⟨w, hw, c⟩ := b2 k z hz hsk p x b hr hx ht
            exact ⟨w, by simp [dget, hne, hw], c⟩
end

end
end Lemmas
