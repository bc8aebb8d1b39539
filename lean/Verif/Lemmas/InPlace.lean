import Verif.Spec.InPlace
namespace Lemmas
open Py Model Spec

/-- The outcome, without what is left when it fails. -/
def outcome {α σ : Type} : α × Except PyErr σ → Except PyErr (α × σ)
  | (v, .ok s) => .ok (v, s)
  | (_, .error e) => .error e

section Dive
variable {σ : Type} (cfg : DiveCfg) (step : σ → Option Coords → Doc → Except PyErr (Option Doc × σ))

theorem leaf_outcome (c : Nat) (bc : Option Coords) (s : σ) (d : Doc) :
    outcome (diveLeafLeft cfg step c bc s d) = diveLeaf cfg step c bc s d := by
  unfold diveLeafLeft diveLeaf
  split
  · rfl
  · split <;> simp_all [outcome]

mutual
theorem dive_outcome (c : Nat) (bc : Option Coords) (s : σ) : (d : Doc) →
    outcome (diveLeft cfg step c bc s d) = dive cfg step c bc s d
  | .dict kvs => by
    simp only [diveLeft, dive]
    split
    · rfl
    · have := items_outcome c s kvs
      rw [← this]
      generalize diveItemsLeft cfg step c s kvs = r
      obtain ⟨v, r⟩ := r
      cases r <;> rfl
  | .list xs => by
    simp only [diveLeft, dive]
    split
    · rfl
    · cases hs : step s bc (.list xs) with
      | error e => rfl
      | ok q =>
        obtain ⟨o, s'⟩ := q
        cases o with
        | some y => rfl
        | none =>
          simp only
          rw [← list_outcome c bc 0 s' xs]
          generalize diveListLeft cfg step c bc 0 s' xs = r
          obtain ⟨v, r⟩ := r
          cases r <;> rfl
  | .null => by simp only [diveLeft, dive]; exact leaf_outcome cfg step c bc s _
  | .bool b => by simp only [diveLeft, dive]; exact leaf_outcome cfg step c bc s _
  | .int i => by simp only [diveLeft, dive]; exact leaf_outcome cfg step c bc s _
  | .atom t => by simp only [diveLeft, dive]; exact leaf_outcome cfg step c bc s _
  | .str t => by simp only [diveLeft, dive]; exact leaf_outcome cfg step c bc s _

theorem list_outcome (c : Nat) (bc : Option Coords) (i : Nat) (s : σ) : (xs : List Doc) →
    outcome (diveListLeft cfg step c bc i s xs) = diveList cfg step c bc i s xs
  | [] => by simp only [diveListLeft, diveList]; rfl
  | x :: xs => by
    simp only [diveListLeft, diveList]
    rw [← dive_outcome (c + 1) (updBase cfg.pandas c bc i) s x]
    generalize diveLeft cfg step (c + 1) (updBase cfg.pandas c bc i) s x = r
    obtain ⟨v, r⟩ := r
    cases r with
    | error e => rfl
    | ok s' =>
      simp only [outcome]
      rw [← list_outcome c bc (i + 1) s' xs]
      generalize diveListLeft cfg step c bc (i + 1) s' xs = r
      obtain ⟨v, r⟩ := r
      cases r <;> rfl

theorem items_outcome (c : Nat) (s : σ) : (kvs : List (Str × Doc)) →
    outcome (diveItemsLeft cfg step c s kvs) = diveItems cfg step c s kvs
  | [] => by simp only [diveItemsLeft, diveItems]; rfl
  | (k, x) :: kvs => by
    simp only [diveItemsLeft, diveItems]
    split
    · rw [← dive_outcome (c + 1) none s x]
      generalize diveLeft cfg step (c + 1) none s x = r
      obtain ⟨v, r⟩ := r
      cases r with
      | error e => rfl
      | ok s' =>
        simp only [outcome]
        rw [← items_outcome c s' kvs]
        generalize diveItemsLeft cfg step c s' kvs = r
        obtain ⟨v, r⟩ := r
        cases r <;> rfl
    · rw [← items_outcome c s kvs]
      generalize diveItemsLeft cfg step c s kvs = r
      obtain ⟨v, r⟩ := r
      cases r <;> rfl
end

end Dive

section Table
variable {σ : Type} (cfg : DiveCfg) (step : σ → Option Coords → Doc → Except PyErr (Option Doc × σ)) (bc : Option Coords) (s : σ)
  (f : Doc → Option Doc) (err : PyErr)

/-- The step does to cells what `f` says, and leaves lists alone. -/
structure Cellwise : Prop where
  lists : ∀ xs, step s bc (.list xs) = .ok (none, s)
  done : ∀ c y, OneCell c → f c = some y → step s bc c = .ok (none, s) ∧ y = c ∨ step s bc c = .ok (some y, s)
  stops : ∀ c, OneCell c → f c = none → step s bc c = .error err

variable {cfg step bc s f err} (hf : Cellwise step bc s f err) (hd : ∀ n : Nat, cfg.depth ≠ some (n : Int))
  (hb : ∀ d i, updBase cfg.pandas d bc i = bc)
include hf hd

theorem scalar_left (c : Nat) (d : Doc) (h : OneCell d) :
    diveLeft cfg step c bc s d = match f d with
      | some y => (y, .ok s)
      | none => (d, .error err) := by
  have leaf : diveLeafLeft cfg step c bc s d = match f d with
      | some y => (y, .ok s)
      | none => (d, .error err) := by
    unfold diveLeafLeft
    rw [if_neg (hd c)]
    cases hfd : f d with
    | none => simp only [hf.stops d h hfd]
    | some y =>
      rcases hf.done d y h hfd with ⟨e, rfl⟩ | e
      · simp only [e]
      · simp only [e]
  cases d with
  | list _ => exact h.elim
  | dict _ => exact h.elim
  | _ => simp only [diveLeft]; exact leaf

include hb

theorem row_done (xs : List Doc) (i : Nat) (hs : ∀ c ∈ xs, OneCell c) (h : ∀ c ∈ xs, (f c).isSome = true) :
    diveListLeft cfg step 1 bc i s xs = (xs.map (fun c => (f c).getD c), .ok s) := by
  induction xs generalizing i with
  | nil => simp [diveListLeft]
  | cons c xs ih =>
    simp only [diveListLeft, hb]
    rw [scalar_left hf hd 2 c (hs c (by simp))]
    obtain ⟨y, hy⟩ := Option.isSome_iff_exists.1 (h c (by simp))
    simp only [hy]
    rw [ih (i + 1) (fun c' hc' => hs c' (by simp [hc'])) (fun c' hc' => h c' (by simp [hc']))]
    simp [hy]

theorem row_stops (left right : List Doc) (bad : Doc) (i : Nat) (hs : ∀ c ∈ left, OneCell c) (h : ∀ c ∈ left, (f c).isSome = true)
    (hsb : OneCell bad) (hbad : f bad = none) :
    diveListLeft cfg step 1 bc i s (left ++ bad :: right) = (left.map (fun c => (f c).getD c) ++ bad :: right, .error err) := by
  induction left generalizing i with
  | nil =>
    simp only [List.nil_append, diveListLeft, hb]
    rw [scalar_left hf hd 2 bad hsb]
    simp [hbad]
  | cons c xs ih =>
    simp only [List.cons_append, diveListLeft, hb]
    rw [scalar_left hf hd 2 c (hs c (by simp))]
    obtain ⟨y, hy⟩ := Option.isSome_iff_exists.1 (h c (by simp))
    simp only [hy]
    rw [ih (i + 1) (fun c' hc' => hs c' (by simp [hc'])) (fun c' hc' => h c' (by simp [hc']))]
    simp [hy]

theorem list_is (c : Nat) (xs : List Doc) : diveLeft cfg step c bc s (.list xs) =
    ((Doc.list (diveListLeft cfg step c bc 0 s xs).1), (diveListLeft cfg step c bc 0 s xs).2) := by
  simp only [diveLeft]
  rw [if_neg (hd c), hf.lists xs]

theorem rows_done (rows : List (List Doc)) (i : Nat) (hs : ∀ r ∈ rows, ∀ c ∈ r, OneCell c) (h : ∀ r ∈ rows, ∀ c ∈ r, (f c).isSome = true) :
    diveListLeft cfg step 0 bc i s (rows.map .list) = ((rows.map (List.map (fun c => (f c).getD c))).map .list, .ok s) := by
  induction rows generalizing i with
  | nil => simp [diveListLeft]
  | cons r rows ih =>
    simp only [List.map_cons, diveListLeft, hb]
    rw [list_is hf hd hb, row_done hf hd hb r 0 (hs r (by simp)) (h r (by simp))]
    simp only
    rw [ih (i + 1) (fun c' hc' => hs c' (by simp [hc'])) (fun c' hc' => h c' (by simp [hc']))]

theorem rows_stop (above below : List (List Doc)) (left right : List Doc) (bad : Doc) (i : Nat)
    (hs : ∀ r ∈ above, ∀ c ∈ r, OneCell c) (h : ∀ r ∈ above, ∀ c ∈ r, (f c).isSome = true)
    (hsl : ∀ c ∈ left, OneCell c) (hl : ∀ c ∈ left, (f c).isSome = true) (hsb : OneCell bad) (hbad : f bad = none) :
    diveListLeft cfg step 0 bc i s ((above ++ (left ++ bad :: right) :: below).map .list) =
      ((above.map (List.map (fun c => (f c).getD c)) ++ (left.map (fun c => (f c).getD c) ++ bad :: right) :: below).map .list,
        .error err) := by
  induction above generalizing i with
  | nil =>
    simp only [List.nil_append, List.map_cons, diveListLeft, hb, List.map_nil]
    rw [list_is hf hd hb, row_stops hf hd hb left right bad 0 hsl hl hsb hbad]
  | cons r rows ih =>
    simp only [List.cons_append, List.map_cons, diveListLeft, hb]
    rw [list_is hf hd hb, row_done hf hd hb r 0 (hs r (by simp)) (h r (by simp))]
    simp only
    rw [ih (i + 1) (fun c' hc' => hs c' (by simp [hc'])) (fun c' hc' => h c' (by simp [hc']))]

end Table

section Values
variable {σ : Type} (cfg : DiveCfg) (step : σ → Option Coords → Doc → Except PyErr (Option Doc × σ)) (s : σ)
  (answer : Option Coords → Doc → Answer) (sel : Str → Prop)

/-- The step has no state, and does what the answer says. -/
structure Answering : Prop where
  takes : ∀ bc d y, answer bc d = .takes y → step s bc d = .ok (some y, s)
  leaves : ∀ bc d, answer bc d = .leaves → step s bc d = .ok (none, s)
  fails : ∀ bc d, answer bc d = .fails → ∃ e, step s bc d = .error e

variable {cfg step s answer sel} (ha : Answering step s answer) (hd : ∀ n : Nat, cfg.depth ≠ some (n : Int))
  (hb : ∀ d bc i, updBase cfg.pandas d bc i = bc) (hsel : ∀ k, cfg.sel k = true ↔ sel k)
include ha hd

theorem leaf_values (c : Nat) (bc : Option Coords) (d : Doc) (h1 : OneCell d) (h2 : ¬ isDict d) :
    (∀ v s', diveLeafLeft cfg step c bc s d = (v, .ok s') → Done answer sel bc d v ∧ s = s') ∧
    (∀ v e, diveLeafLeft cfg step c bc s d = (v, .error e) → Halted answer sel bc d v) := by
  unfold diveLeafLeft
  rw [if_neg (hd c)]
  cases h : answer bc d with
  | takes y =>
    simp only [ha.takes bc d y h]
    exact ⟨fun v s' e => by cases e; exact ⟨.taken _ _ _ h2 h, rfl⟩, fun v e e' => by cases e'⟩
  | leaves =>
    simp only [ha.leaves bc d h]
    exact ⟨fun v s' e => by cases e; exact ⟨.cell _ _ h1 h, rfl⟩, fun v e e' => by cases e'⟩
  | fails =>
    obtain ⟨e0, h0⟩ := ha.fails bc d h
    simp only [h0]
    exact ⟨fun v s' e => (by cases e), fun v e e' => (by cases e'; exact .here _ _ h2 h)⟩

include hb hsel

mutual
theorem values_left (c : Nat) (bc : Option Coords) : (d : Doc) →
    (∀ v s', diveLeft cfg step c bc s d = (v, .ok s') → Done answer sel bc d v ∧ s = s') ∧
    (∀ v e, diveLeft cfg step c bc s d = (v, .error e) → Halted answer sel bc d v)
  | .dict kvs => by
    simp only [diveLeft]
    rw [if_neg (hd c)]
    obtain ⟨h1, h2⟩ := items_left c kvs
    generalize diveItemsLeft cfg step c s kvs = q at h1 h2
    obtain ⟨w, q⟩ := q
    constructor
    · intro v s' e
      cases e
      obtain ⟨h, rfl⟩ := h1 _ s' rfl
      exact ⟨.dict _ _ _ h, rfl⟩
    · intro v e he
      cases he
      obtain ⟨pre, k, x, post, pre', x', rfl, h, hp, hk, hx⟩ := h2 _ e rfl
      subst h
      exact .dict _ _ _ _ _ _ _ hp hk hx
  | .list xs => by
    simp only [diveLeft]
    rw [if_neg (hd c)]
    cases h : answer bc (.list xs) with
    | takes y =>
      simp only [ha.takes bc _ y h]
      exact ⟨fun v s' e => by cases e; exact ⟨.taken _ _ _ (fun h => h) h, rfl⟩, fun v e e' => by cases e'⟩
    | fails =>
      obtain ⟨e0, h0⟩ := ha.fails bc _ h
      simp only [h0]
      exact ⟨fun v s' e => (by cases e), fun v e e' => (by cases e'; exact .here _ _ (fun h => h) h)⟩
    | leaves =>
      simp only [ha.leaves bc _ h]
      obtain ⟨h1, h2⟩ := lists_left c bc 0 xs
      generalize diveListLeft cfg step c bc 0 s xs = q at h1 h2
      obtain ⟨w, q⟩ := q
      constructor
      · intro v s' e
        cases e
        obtain ⟨hl, rfl⟩ := h1 _ s' rfl
        exact ⟨.list _ _ _ h hl, rfl⟩
      · intro v e he
        cases he
        obtain ⟨pre, x, post, pre', x', rfl, hv, hp, hx⟩ := h2 _ e rfl
        subst hv
        exact .list _ _ _ _ _ _ h hp hx
  | .null => by simp only [diveLeft]; exact leaf_values ha hd c bc _ trivial (fun h => h)
  | .bool b => by simp only [diveLeft]; exact leaf_values ha hd c bc _ trivial (fun h => h)
  | .int i => by simp only [diveLeft]; exact leaf_values ha hd c bc _ trivial (fun h => h)
  | .atom t => by simp only [diveLeft]; exact leaf_values ha hd c bc _ trivial (fun h => h)
  | .str t => by simp only [diveLeft]; exact leaf_values ha hd c bc _ trivial (fun h => h)

theorem lists_left (c : Nat) (bc : Option Coords) (i : Nat) : (xs : List Doc) →
    (∀ v s', diveListLeft cfg step c bc i s xs = (v, .ok s') → DoneList answer sel bc xs v ∧ s = s') ∧
    (∀ v e, diveListLeft cfg step c bc i s xs = (v, .error e) →
      ∃ pre x post pre' x', xs = pre ++ x :: post ∧ v = pre' ++ x' :: post ∧ DoneList answer sel bc pre pre' ∧ Halted answer sel bc x x')
  | [] => by
    simp only [diveListLeft]
    exact ⟨fun v s' e => by cases e; exact ⟨.nil _, rfl⟩, fun v e e' => by cases e'⟩
  | x :: xs => by
    simp only [diveListLeft, hb]
    obtain ⟨h1, h2⟩ := values_left (c + 1) bc x
    generalize diveLeft cfg step (c + 1) bc s x = r at h1 h2
    obtain ⟨y, r⟩ := r
    cases r with
    | error e0 =>
      have hx := h2 y e0 rfl
      exact ⟨fun v s' e => (by cases e), fun v e e' => (by cases e'; exact ⟨[], x, xs, [], y, rfl, rfl, .nil _, hx⟩)⟩
    | ok s0 =>
      obtain ⟨hx, rfl⟩ := h1 y s0 rfl
      obtain ⟨g1, g2⟩ := lists_left c bc (i + 1) xs
      simp only
      generalize diveListLeft cfg step c bc (i + 1) s xs = q at g1 g2
      obtain ⟨w, q⟩ := q
      constructor
      · intro v s' e
        cases e
        obtain ⟨hl, rfl⟩ := g1 _ s' rfl
        exact ⟨.cons _ _ _ _ _ hx hl, rfl⟩
      · intro v e he
        cases he
        obtain ⟨pre, z, post, pre', z', hp, hv, hd', hz⟩ := g2 _ e rfl
        exact ⟨x :: pre, z, post, y :: pre', z', by rw [hp]; rfl, by rw [hv]; rfl, .cons _ _ _ _ _ hx hd', hz⟩

theorem items_left (c : Nat) : (kvs : List (Str × Doc)) →
    (∀ v s', diveItemsLeft cfg step c s kvs = (v, .ok s') → DoneItems answer sel kvs v ∧ s = s') ∧
    (∀ v e, diveItemsLeft cfg step c s kvs = (v, .error e) →
      ∃ pre k x post pre' x', kvs = pre ++ (k, x) :: post ∧ v = pre' ++ (k, x') :: post ∧ DoneItems answer sel pre pre' ∧ sel k ∧
        Halted answer sel none x x')
  | [] => by
    simp only [diveItemsLeft]
    exact ⟨fun v s' e => by cases e; exact ⟨.nil, rfl⟩, fun v e e' => by cases e'⟩
  | (k, x) :: kvs => by
    simp only [diveItemsLeft]
    obtain ⟨g1, g2⟩ := items_left c kvs
    generalize hq : diveItemsLeft cfg step c s kvs = q at g1 g2
    obtain ⟨w, q⟩ := q
    by_cases hk : cfg.sel k = true
    · rw [if_pos hk]
      have hk' := (hsel k).1 hk
      obtain ⟨h1, h2⟩ := values_left (c + 1) none x
      generalize diveLeft cfg step (c + 1) none s x = r at h1 h2
      obtain ⟨y, r⟩ := r
      cases r with
      | error e0 =>
        have hx := h2 y e0 rfl
        exact ⟨fun v s' e => (by cases e), fun v e e' => (by cases e'; exact ⟨[], k, x, kvs, [], y, rfl, rfl, .nil, hk', hx⟩)⟩
      | ok s0 =>
        obtain ⟨hx, rfl⟩ := h1 y s0 rfl
        simp only [hq]
        constructor
        · intro v s' e
          cases e
          obtain ⟨hl, rfl⟩ := g1 _ s' rfl
          exact ⟨.item _ _ _ _ _ hk' hx hl, rfl⟩
        · intro v e he
          cases he
          obtain ⟨pre, k2, z, post, pre', z', hp, hv, hd', hk2, hz⟩ := g2 _ e rfl
          exact ⟨(k, x) :: pre, k2, z, post, (k, y) :: pre', z', by rw [hp]; rfl, by rw [hv]; rfl, .item _ _ _ _ _ hk' hx hd', hk2, hz⟩
    · rw [if_neg hk]
      have hk' : ¬ sel k := fun h => hk ((hsel k).2 h)
      constructor
      · intro v s' e
        cases e
        obtain ⟨hl, rfl⟩ := g1 _ s' rfl
        exact ⟨.other _ _ _ _ hk' hl, rfl⟩
      · intro v e he
        cases he
        obtain ⟨pre, k2, z, post, pre', z', hp, hv, hd', hk2, hz⟩ := g2 _ e rfl
        exact ⟨(k, x) :: pre, k2, z, post, (k, x) :: pre', z', by rw [hp]; rfl, by rw [hv]; rfl, .other _ _ _ _ hk' hd', hk2, hz⟩
end

end Values

end Lemmas
