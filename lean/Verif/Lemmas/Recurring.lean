import Verif.Spec.Recurring
import Verif.Lemmas.Dict
/-
Lemmas on filters within filters.
-/
namespace Lemmas
open Py Model Spec

/-! What settles -/

theorem settles_const {α : Type} (v : α) : Settles (fun _ => v) := ⟨0, fun _ _ => rfl⟩

theorem settles_succ {α : Type} {f : Nat → α} (h : Settles (fun n => f (n + 1))) : Settles f := by
  obtain ⟨N, hN⟩ := h
  refine ⟨N + 1, fun n hn => ?_⟩
  obtain ⟨m, rfl⟩ : ∃ m, n = m + 1 := ⟨n - 1, by omega⟩
  exact hN m (by omega)

/-- First one, then what follows on its result. -/
theorem settles_bind {α β : Type} {f : Nat → α} {g : Nat → α → β} (h : Settles f) (hg : ∀ v, (∃ n, f n = v) → Settles (fun n => g n v)) :
    Settles (fun n => g n (f n)) := by
  obtain ⟨N, hN⟩ := h
  obtain ⟨M, hM⟩ := hg (f N) ⟨N, rfl⟩
  refine ⟨N + M, fun n hn => ?_⟩
  show g n (f n) = g (N + M) (f (N + M))
  rw [hN n (by omega), hN (N + M) (by omega)]
  exact (hM n (by omega)).trans (hM (N + M) (by omega)).symm

theorem settles_of {α β : Type} {f : Nat → α} {F : Nat → β} (h : Settles f) (hF : ∀ n m, f n = f m → F n = F m) : Settles F := by
  obtain ⟨N, hN⟩ := h
  exact ⟨N, fun n hn => hF n N (hN n hn)⟩

/-- The same for calls that may raise. -/
theorem settles_ok {α β : Type} {f : Nat → Except PyErr α} {g : Nat → Except PyErr α → Except PyErr β} (h : Settles f)
    (hok : ∀ v, (∃ n, f n = .ok v) → Settles (fun n => g n (.ok v))) (herr : ∀ e, Settles (fun n => g n (.error e))) :
    Settles (fun n => g n (f n)) := by
  refine settles_bind h (fun v hv => ?_)
  cases v with
  | ok v => exact hok v hv
  | error e => exact herr e

/-! Diving -/

section
variable {σ : Type} (cfg : DiveCfg) (I : σ → Prop) (P : Doc → Prop)

/-- A predicate that goes down to elements. -/
def Inherited (P : Doc → Prop) : Prop :=
  (∀ xs, P (.list xs) → ∀ x, x ∈ xs → P x) ∧ ∀ kvs, P (.dict kvs) → ∀ k x, (k, x) ∈ kvs → P x

mutual
theorem dive_settles (step : Nat → σ → Option Coords → Doc → Except PyErr (Option Doc × σ)) (hP : Inherited P)
    (hs : ∀ s bc d, I s → P d → Settles (fun n => step n s bc d))
    (hI : ∀ n s bc d v s', I s → P d → step n s bc d = .ok (v, s') → I s') (cdepth : Nat) (bc : Option Coords) (s : σ) (hi : I s) :
    ∀ d, P d → Settles (fun n => dive cfg (step n) cdepth bc s d) ∧
      ∀ n v s', dive cfg (step n) cdepth bc s d = .ok (v, s') → I s'
  | .dict kvs, hd => by
    have := diveItems_settles step hP hs hI cdepth s hi kvs (hP.2 kvs hd)
    constructor
    · simp only [dive]
      split
      · exact settles_const _
      · exact settles_of this.1 (fun n m e => by simp only [e])
    · intro n v s' h
      simp only [dive] at h
      split at h
      · cases h; exact hi
      · split at h
        · cases h
        · rename_i hk; cases h; exact this.2 n _ _ hk
  | .list xs, hd => by
    constructor
    · simp only [dive]
      split
      · exact settles_const _
      · refine settles_ok (f := fun n => step n s bc (.list xs)) (g := fun n r => match r with
          | .error e => .error e
          | .ok (some y, s') => .ok (y, s')
          | .ok (none, s') => match diveList cfg (step n) cdepth bc 0 s' xs with
            | .error e => .error e
            | .ok (xs', s') => .ok (.list xs', s')) (hs s bc _ hi hd) ?_ (fun e => settles_const _)
        rintro ⟨v, s'⟩ ⟨n, hn⟩
        have hi' := hI n s bc _ v s' hi hd hn
        cases v with
        | some y => exact settles_const _
        | none =>
          exact settles_of (diveList_settles step hP hs hI cdepth bc 0 s' hi' xs (hP.1 xs hd)).1 (fun n m e => by simp only [e])
    · intro n v s' h
      simp only [dive] at h
      split at h
      · cases h; exact hi
      · split at h
        · cases h
        · rename_i y s1 hk; cases h; exact hI n s bc _ _ _ hi hd hk
        · rename_i s1 hk
          have hi' := hI n s bc _ _ _ hi hd hk
          split at h
          · cases h
          · rename_i hk'; cases h; exact (diveList_settles step hP hs hI cdepth bc 0 s1 hi' xs (hP.1 xs hd)).2 n _ _ hk'
  | .null, hd => by simpa only [dive] using diveLeaf_settles step hs hI cdepth bc s hi .null hd
  | .bool b, hd => by simpa only [dive] using diveLeaf_settles step hs hI cdepth bc s hi (.bool b) hd
  | .int i, hd => by simpa only [dive] using diveLeaf_settles step hs hI cdepth bc s hi (.int i) hd
  | .atom t, hd => by simpa only [dive] using diveLeaf_settles step hs hI cdepth bc s hi (.atom t) hd
  | .str t, hd => by simpa only [dive] using diveLeaf_settles step hs hI cdepth bc s hi (.str t) hd

theorem diveLeaf_settles (step : Nat → σ → Option Coords → Doc → Except PyErr (Option Doc × σ))
    (hs : ∀ s bc d, I s → P d → Settles (fun n => step n s bc d))
    (hI : ∀ n s bc d v s', I s → P d → step n s bc d = .ok (v, s') → I s') (cdepth : Nat) (bc : Option Coords) (s : σ) (hi : I s)
    (d : Doc) (hd : P d) : Settles (fun n => diveLeaf cfg (step n) cdepth bc s d) ∧
      ∀ n v s', diveLeaf cfg (step n) cdepth bc s d = .ok (v, s') → I s' := by
  constructor
  · unfold diveLeaf
    split
    · exact settles_const _
    · exact settles_of (hs s bc d hi hd) (fun n m e => by simp only [e])
  · intro n v s' h
    unfold diveLeaf at h
    split at h
    · cases h; exact hi
    · split at h
      · cases h
      · rename_i hk; cases h; exact hI n s bc d _ _ hi hd hk
      · rename_i hk; cases h; exact hI n s bc d _ _ hi hd hk

theorem diveList_settles (step : Nat → σ → Option Coords → Doc → Except PyErr (Option Doc × σ)) (hP : Inherited P)
    (hs : ∀ s bc d, I s → P d → Settles (fun n => step n s bc d))
    (hI : ∀ n s bc d v s', I s → P d → step n s bc d = .ok (v, s') → I s') (cdepth : Nat) (bc : Option Coords) (i : Nat) (s : σ) (hi : I s) :
    ∀ xs, (∀ x, x ∈ xs → P x) → Settles (fun n => diveList cfg (step n) cdepth bc i s xs) ∧
      ∀ n v s', diveList cfg (step n) cdepth bc i s xs = .ok (v, s') → I s'
  | [], _ => by
    constructor
    · simp only [diveList]; exact settles_const _
    · intro n v s' h; simp only [diveList] at h; cases h; exact hi
  | x :: xs, hd => by
    have hx := dive_settles step hP hs hI (cdepth + 1) (updBase cfg.pandas cdepth bc i) s hi x (hd x (List.mem_cons_self ..))
    have hxs : ∀ s', I s' → _ := fun s' hi' =>
      diveList_settles step hP hs hI cdepth bc (i + 1) s' hi' xs (fun y hy => hd y (List.mem_cons_of_mem _ hy))
    constructor
    · simp only [diveList]
      refine settles_ok (f := fun n => dive cfg (step n) (cdepth + 1) (updBase cfg.pandas cdepth bc i) s x) (g := fun n r => match r with
        | .error e => .error e
        | .ok (y, s') => match diveList cfg (step n) cdepth bc (i + 1) s' xs with
          | .error e => .error e
          | .ok (ys, s'') => .ok (y :: ys, s'')) hx.1 ?_ (fun e => settles_const _)
      rintro ⟨y, s'⟩ ⟨n, hn⟩
      exact settles_of (hxs s' (hx.2 n _ _ hn)).1 (fun n m e => by simp only [e])
    · intro n v s' h
      simp only [diveList] at h
      split at h
      · cases h
      · rename_i hk
        split at h
        · cases h
        · rename_i hk'; cases h; exact (hxs _ (hx.2 n _ _ hk)).2 n _ _ hk'

theorem diveItems_settles (step : Nat → σ → Option Coords → Doc → Except PyErr (Option Doc × σ)) (hP : Inherited P)
    (hs : ∀ s bc d, I s → P d → Settles (fun n => step n s bc d))
    (hI : ∀ n s bc d v s', I s → P d → step n s bc d = .ok (v, s') → I s') (cdepth : Nat) (s : σ) (hi : I s) :
    ∀ kvs, (∀ k x, (k, x) ∈ kvs → P x) → Settles (fun n => diveItems cfg (step n) cdepth s kvs) ∧
      ∀ n v s', diveItems cfg (step n) cdepth s kvs = .ok (v, s') → I s'
  | [], _ => by
    constructor
    · simp only [diveItems]; exact settles_const _
    · intro n v s' h; simp only [diveItems] at h; cases h; exact hi
  | (k, x) :: kvs, hd => by
    have hxs : ∀ s', I s' → _ := fun s' hi' =>
      diveItems_settles step hP hs hI cdepth s' hi' kvs (fun k y hy => hd k y (List.mem_cons_of_mem _ hy))
    have hx := dive_settles step hP hs hI (cdepth + 1) none s hi x (hd k x (List.mem_cons_self ..))
    constructor
    · simp only [diveItems]
      split
      · refine settles_ok (f := fun n => dive cfg (step n) (cdepth + 1) none s x) (g := fun n r => match r with
          | .error e => .error e
          | .ok (y, s') => match diveItems cfg (step n) cdepth s' kvs with
            | .error e => .error e
            | .ok (kvs', s'') => .ok ((k, y) :: kvs', s'')) hx.1 ?_ (fun e => settles_const _)
        rintro ⟨y, s'⟩ ⟨n, hn⟩
        exact settles_of (hxs s' (hx.2 n _ _ hn)).1 (fun n m e => by simp only [e])
      · exact settles_of (hxs s hi).1 (fun n m e => by simp only [e])
    · intro n v s' h
      simp only [diveItems] at h
      split at h
      · split at h
        · cases h
        · rename_i hk
          split at h
          · cases h
          · rename_i hk'; cases h; exact (hxs _ (hx.2 n _ _ hk)).2 n _ _ hk'
      · split at h
        · cases h
        · rename_i hk; cases h; exact (hxs s hi).2 n _ _ hk
end
end

section
variable {σ : Type} (cfg : DiveCfg) (I : σ → Prop) (P : Doc → Prop) (step : σ → Option Coords → Doc → Except PyErr (Option Doc × σ))

/-- A predicate on values that is one on their elements. -/
def Elementary (P : Doc → Prop) : Prop :=
  (∀ xs, P (.list xs) ↔ ∀ x, x ∈ xs → P x) ∧ ∀ kvs, P (.dict kvs) ↔ ∀ k x, (k, x) ∈ kvs → P x

theorem Elementary.inherited {P : Doc → Prop} (h : Elementary P) : Inherited P := ⟨fun xs => (h.1 xs).1, fun kvs => (h.2 kvs).1⟩

mutual
theorem dive_keeps (hP : Elementary P)
    (hs : ∀ s bc d v s', I s → P d → step s bc d = .ok (v, s') → I s' ∧ ∀ y, v = some y → P y) (cdepth : Nat) (bc : Option Coords) (s : σ)
    (hi : I s) : ∀ d, P d → ∀ v s', dive cfg step cdepth bc s d = .ok (v, s') → I s' ∧ P v
  | .dict kvs, hd, v, s', h => by
    simp only [dive] at h
    split at h
    · cases h; exact ⟨hi, hd⟩
    · split at h
      · cases h
      · rename_i hk
        cases h
        have := diveItems_keeps hP hs cdepth s hi kvs ((hP.2 kvs).1 hd) _ _ hk
        exact ⟨this.1, (hP.2 _).2 this.2⟩
  | .list xs, hd, v, s', h => by
    simp only [dive] at h
    split at h
    · cases h; exact ⟨hi, hd⟩
    · split at h
      · cases h
      · rename_i hk; cases h
        have := hs _ _ _ _ _ hi hd hk
        exact ⟨this.1, this.2 _ rfl⟩
      · rename_i hk
        have h1 := hs _ _ _ _ _ hi hd hk
        split at h
        · cases h
        · rename_i hk'; cases h
          have := diveList_keeps hP hs cdepth bc 0 _ h1.1 xs ((hP.1 xs).1 hd) _ _ hk'
          exact ⟨this.1, (hP.1 _).2 this.2⟩
  | .null, hd, v, s', h => by simp only [dive] at h; exact diveLeaf_keeps hs cdepth bc s hi _ hd _ _ h
  | .bool b, hd, v, s', h => by simp only [dive] at h; exact diveLeaf_keeps hs cdepth bc s hi _ hd _ _ h
  | .int i, hd, v, s', h => by simp only [dive] at h; exact diveLeaf_keeps hs cdepth bc s hi _ hd _ _ h
  | .atom t, hd, v, s', h => by simp only [dive] at h; exact diveLeaf_keeps hs cdepth bc s hi _ hd _ _ h
  | .str t, hd, v, s', h => by simp only [dive] at h; exact diveLeaf_keeps hs cdepth bc s hi _ hd _ _ h

theorem diveLeaf_keeps (hs : ∀ s bc d v s', I s → P d → step s bc d = .ok (v, s') → I s' ∧ ∀ y, v = some y → P y) (cdepth : Nat)
    (bc : Option Coords) (s : σ) (hi : I s) (d : Doc) (hd : P d) (v : Doc) (s' : σ)
    (h : diveLeaf cfg step cdepth bc s d = .ok (v, s')) : I s' ∧ P v := by
  unfold diveLeaf at h
  split at h
  · cases h; exact ⟨hi, hd⟩
  · split at h
    · cases h
    · rename_i hk; cases h
      have := hs _ _ _ _ _ hi hd hk
      exact ⟨this.1, this.2 _ rfl⟩
    · rename_i hk; cases h
      exact ⟨(hs _ _ _ _ _ hi hd hk).1, hd⟩

theorem diveList_keeps (hP : Elementary P)
    (hs : ∀ s bc d v s', I s → P d → step s bc d = .ok (v, s') → I s' ∧ ∀ y, v = some y → P y) (cdepth : Nat) (bc : Option Coords) (i : Nat)
    (s : σ) (hi : I s) : ∀ xs, (∀ x, x ∈ xs → P x) → ∀ ys s', diveList cfg step cdepth bc i s xs = .ok (ys, s') →
      I s' ∧ ∀ y, y ∈ ys → P y
  | [], _, ys, s', h => by simp only [diveList] at h; cases h; exact ⟨hi, fun y hy => nomatch hy⟩
  | x :: xs, hd, ys, s', h => by
    simp only [diveList] at h
    split at h
    · cases h
    · rename_i hk
      have h1 := dive_keeps hP hs (cdepth + 1) _ s hi x (hd x (List.mem_cons_self ..)) _ _ hk
      split at h
      · cases h
      · rename_i hk'; cases h
        have h2 := diveList_keeps hP hs cdepth bc (i + 1) _ h1.1 xs (fun y hy => hd y (List.mem_cons_of_mem _ hy)) _ _ hk'
        refine ⟨h2.1, fun y hy => ?_⟩
        rcases List.mem_cons.1 hy with rfl | hy
        · exact h1.2
        · exact h2.2 y hy

theorem diveItems_keeps (hP : Elementary P)
    (hs : ∀ s bc d v s', I s → P d → step s bc d = .ok (v, s') → I s' ∧ ∀ y, v = some y → P y) (cdepth : Nat) (s : σ) (hi : I s) :
    ∀ kvs, (∀ k x, (k, x) ∈ kvs → P x) → ∀ ys s', diveItems cfg step cdepth s kvs = .ok (ys, s') → I s' ∧ ∀ k y, (k, y) ∈ ys → P y
  | [], _, ys, s', h => by simp only [diveItems] at h; cases h; exact ⟨hi, fun k y hy => nomatch hy⟩
  | (k, x) :: kvs, hd, ys, s', h => by
    have hrest : ∀ s1 zs s2, I s1 → diveItems cfg step cdepth s1 kvs = .ok (zs, s2) → I s2 ∧ ∀ k y, (k, y) ∈ zs → P y :=
      fun s1 zs s2 hi1 h1 => diveItems_keeps hP hs cdepth s1 hi1 kvs (fun k y hy => hd k y (List.mem_cons_of_mem _ hy)) zs s2 h1
    simp only [diveItems] at h
    split at h
    · split at h
      · cases h
      · rename_i hk
        have h1 := dive_keeps hP hs (cdepth + 1) none s hi x (hd k x (List.mem_cons_self ..)) _ _ hk
        split at h
        · cases h
        · rename_i hk'; cases h
          have h2 := hrest _ _ _ h1.1 hk'
          refine ⟨h2.1, fun k' y hy => ?_⟩
          rcases List.mem_cons.1 hy with e | hy
          · cases e; exact h1.2
          · exact h2.2 k' y hy
    · split at h
      · cases h
      · rename_i hk'; cases h
        have h2 := hrest _ _ _ hi hk'
        refine ⟨h2.1, fun k' y hy => ?_⟩
        rcases List.mem_cons.1 hy with e | hy
        · cases e; exact hd k _ (List.mem_cons_self ..)
        · exact h2.2 k' y hy
end
end

/-! More stack -/

/-- What the one returns the other returns too. -/
def Le {α : Type} (a b : Except PyErr α) : Prop := ∀ v, a = .ok v → b = .ok v

section
variable {σ : Type} (cfg : DiveCfg) (I : σ → Prop) (step step' : σ → Option Coords → Doc → Except PyErr (Option Doc × σ))

mutual
theorem dive_le (hs : ∀ s bc d v s', I s → step s bc d = .ok (v, s') → I s' ∧ step' s bc d = .ok (v, s')) (cdepth : Nat) (bc : Option Coords)
    (s : σ) (hi : I s) : ∀ d v s', dive cfg step cdepth bc s d = .ok (v, s') → I s' ∧ dive cfg step' cdepth bc s d = .ok (v, s')
  | .dict kvs, v, s', h => by
    simp only [dive] at h ⊢
    split at h
    · rename_i hc; rw [if_pos hc]; cases h; exact ⟨hi, rfl⟩
    · rename_i hc; rw [if_neg hc]
      split at h
      · cases h
      · rename_i hk; cases h
        have := diveItems_le hs cdepth s hi kvs _ _ hk
        rw [this.2]; exact ⟨this.1, rfl⟩
  | .list xs, v, s', h => by
    simp only [dive] at h ⊢
    split at h
    · rename_i hc; rw [if_pos hc]; cases h; exact ⟨hi, rfl⟩
    · rename_i hc; rw [if_neg hc]
      split at h
      · cases h
      · rename_i hk; cases h
        have := hs _ _ _ _ _ hi hk
        rw [this.2]; exact ⟨this.1, rfl⟩
      · rename_i hk
        have h1 := hs _ _ _ _ _ hi hk
        rw [h1.2]
        split at h
        · cases h
        · rename_i hk'; cases h
          have := diveList_le hs cdepth bc 0 _ h1.1 xs _ _ hk'
          simp only [this.2]; exact ⟨this.1, trivial⟩
  | .null, v, s', h => by simp only [dive] at h ⊢; exact diveLeaf_le hs cdepth bc s hi _ _ _ h
  | .bool b, v, s', h => by simp only [dive] at h ⊢; exact diveLeaf_le hs cdepth bc s hi _ _ _ h
  | .int i, v, s', h => by simp only [dive] at h ⊢; exact diveLeaf_le hs cdepth bc s hi _ _ _ h
  | .atom t, v, s', h => by simp only [dive] at h ⊢; exact diveLeaf_le hs cdepth bc s hi _ _ _ h
  | .str t, v, s', h => by simp only [dive] at h ⊢; exact diveLeaf_le hs cdepth bc s hi _ _ _ h

theorem diveLeaf_le (hs : ∀ s bc d v s', I s → step s bc d = .ok (v, s') → I s' ∧ step' s bc d = .ok (v, s')) (cdepth : Nat)
    (bc : Option Coords) (s : σ) (hi : I s) (d v : Doc) (s' : σ) (h : diveLeaf cfg step cdepth bc s d = .ok (v, s')) :
    I s' ∧ diveLeaf cfg step' cdepth bc s d = .ok (v, s') := by
  unfold diveLeaf at h ⊢
  split at h
  · rename_i hc; rw [if_pos hc]; cases h; exact ⟨hi, rfl⟩
  · rename_i hc; rw [if_neg hc]
    split at h
    · cases h
    · rename_i hk; cases h
      have := hs _ _ _ _ _ hi hk
      rw [this.2]; exact ⟨this.1, rfl⟩
    · rename_i hk; cases h
      have := hs _ _ _ _ _ hi hk
      rw [this.2]; exact ⟨this.1, rfl⟩

theorem diveList_le (hs : ∀ s bc d v s', I s → step s bc d = .ok (v, s') → I s' ∧ step' s bc d = .ok (v, s')) (cdepth : Nat)
    (bc : Option Coords) (i : Nat) (s : σ) (hi : I s) : ∀ xs ys s', diveList cfg step cdepth bc i s xs = .ok (ys, s') →
      I s' ∧ diveList cfg step' cdepth bc i s xs = .ok (ys, s')
  | [], ys, s', h => by simp only [diveList] at h ⊢; cases h; exact ⟨hi, rfl⟩
  | x :: xs, ys, s', h => by
    simp only [diveList] at h ⊢
    split at h
    · cases h
    · rename_i hk
      have h1 := dive_le hs (cdepth + 1) _ s hi x _ _ hk
      rw [h1.2]
      split at h
      · cases h
      · rename_i hk'; cases h
        have h2 := diveList_le hs cdepth bc (i + 1) _ h1.1 xs _ _ hk'
        simp only [h2.2]; exact ⟨h2.1, trivial⟩

theorem diveItems_le (hs : ∀ s bc d v s', I s → step s bc d = .ok (v, s') → I s' ∧ step' s bc d = .ok (v, s')) (cdepth : Nat) (s : σ)
    (hi : I s) : ∀ kvs ys s', diveItems cfg step cdepth s kvs = .ok (ys, s') → I s' ∧ diveItems cfg step' cdepth s kvs = .ok (ys, s')
  | [], ys, s', h => by simp only [diveItems] at h ⊢; cases h; exact ⟨hi, rfl⟩
  | (k, x) :: kvs, ys, s', h => by
    simp only [diveItems] at h ⊢
    split at h
    · rename_i hc; rw [if_pos hc]
      split at h
      · cases h
      · rename_i hk
        have h1 := dive_le hs (cdepth + 1) none s hi x _ _ hk
        rw [h1.2]
        split at h
        · cases h
        · rename_i hk'; cases h
          have h2 := diveItems_le hs cdepth _ h1.1 kvs _ _ hk'
          simp only [h2.2]; exact ⟨h2.1, trivial⟩
    · rename_i hc; rw [if_neg hc]
      split at h
      · cases h
      · rename_i hk'; cases h
        have h2 := diveItems_le hs cdepth _ hi kvs _ _ hk'
        rw [h2.2]; exact ⟨h2.1, rfl⟩
end
end

end Lemmas
