import Verif.Spec.MakeDirs
/-
C127: many processes may ensure directories at once.
-/
namespace Props
open Py Model Spec

private theorem exists_or (n : Node) (h : n = .absent ∨ n = .dir) : n.exists_ = true ↔ n = .dir := by
  rcases h with rfl | rfl <;> simp [Node.exists_]

private theorem does_at (t : FsTree) (p q : List Str) : mkdirDoes t p q = t q ∨ (q = p ∧ t q = .absent ∧ mkdirDoes t p q = .dir) := by
  unfold mkdirDoes
  split
  · rename_i h
    unfold withDir
    split
    · rename_i e
      subst e
      right
      refine ⟨rfl, ?_, rfl⟩
      unfold mkdirSays at h
      split at h
      · cases h
      · rename_i ha; exact Classical.byContradiction ha
    · exact .inl rfl
  · exact .inl rfl

private theorem does_dir {t : FsTree} {q : List Str} (p : List Str) (h : t q = .dir) : mkdirDoes t p q = .dir := by
  rcases does_at t p q with h1 | ⟨_, _, h1⟩
  · rw [h1, h]
  · exact h1

private theorem does_fs {t : FsTree} (p : List Str) (h : FileSystem t) : FileSystem (mkdirDoes t p) := by
  refine ⟨does_dir p h.root, ?_⟩
  intro q hq hne
  rcases does_at t p q with h1 | ⟨rfl, h2, h3⟩
  · exact does_dir p (h.inside q hq (by rw [← h1]; exact hne))
  · apply does_dir
    have hm : mkdirSays t q = .made := by
      unfold mkdirDoes at h3
      split at h3
      · assumption
      · rw [h2] at h3; cases h3
    unfold mkdirSays at hm
    split at hm
    · cases hm
    · split at hm
      · assumption
      · cases hm

private theorem take_dir {t : FsTree} (h : FileSystem t) : ∀ (k : Nat) (p : List Str), t p = .dir → t (p.take (p.length - k)) = .dir
  | 0, p, hp => by simpa using hp
  | k + 1, p, hp => by
    have ih := take_dir h k p hp
    by_cases hn : p.take (p.length - k) = []
    · have : p.take (p.length - (k + 1)) = [] := by
        have := List.take_eq_nil_iff.1 hn
        rcases this with h0 | h0
        · simp [show p.length - (k + 1) = 0 by omega]
        · simp [h0]
      rw [this]; exact h.root
    · have := h.inside _ hn (by rw [ih]; simp)
      have e : (p.take (p.length - k)).dropLast = p.take (p.length - (k + 1)) := by
        rw [List.dropLast_eq_take, List.take_take, List.length_take]
        congr 1
        omega
      rwa [e] at this

private theorem prefix_dir {t : FsTree} (h : FileSystem t) (p : List Str) (hp : t p = .dir) (n : Nat) : t (p.take n) = .dir := by
  by_cases hn : n ≤ p.length
  · have := take_dir h (p.length - n) p hp
    rwa [show p.length - (p.length - n) = n by omega] at this
  · rw [List.take_of_length_le (by omega)]; exact hp

/-- How many operations a call still has to do, at most. -/
private def toDo (L : Nat) : DirsPc → Nat
  | .start => 2 * L + 1
  | .isdir => 1
  | .look n => n + L
  | .make n => L + 1 - n
  | .returned => 0
  | .raised => 0

/-- What is known of the place where a call is. -/
private def Fine (p : List Str) (t : FsTree) : DirsPc → Prop
  | .start => True
  | .isdir => t p = .dir
  | .look n => 1 ≤ n ∧ n ≤ p.length
  | .make n => 1 ≤ n ∧ n ≤ p.length ∧ t (p.take (n - 1)) = .dir
  | .returned => t p = .dir
  | .raised => False

private theorem fine_does {p : List Str} {t : FsTree} {c : DirsPc} (q : List Str) (h : Fine p t c) : Fine p (mkdirDoes t q) c := by
  cases c with
  | start => trivial
  | isdir => exact does_dir q h
  | look n => exact h
  | make n => exact ⟨h.1, h.2.1, does_dir q h.2.2⟩
  | returned => exact does_dir q h
  | raised => exact h

private theorem step_tree (p : List Str) (t : FsTree) (c : DirsPc) :
    (dirsStep p t c).2 = t ∨ ∃ n, (dirsStep p t c).2 = mkdirDoes t (p.take n) := by
  cases c with
  | make n =>
    simp only [dirsStep]
    split
    · exact .inl rfl
    · exact .inr ⟨n, rfl⟩
  | start => simp only [dirsStep]; split <;> exact .inl rfl
  | isdir => simp only [dirsStep]; split <;> exact .inl rfl
  | look n => simp only [dirsStep]; split <;> exact .inl rfl
  | returned => exact .inl rfl
  | raised => exact .inl rfl

private theorem step_fine {p : List Str} {t : FsTree} {c : DirsPc} (hp : p ≠ []) (hfs : FileSystem t)
    (hc : ∀ n, t (p.take n) = .absent ∨ t (p.take n) = .dir) (h : Fine p t c) :
    Fine p (dirsStep p t c).2 (dirsStep p t c).1 ∧ toDo p.length (dirsStep p t c).1 ≤ toDo p.length c - 1 := by
  have hlen : 1 ≤ p.length := by cases p with
    | nil => exact absurd rfl hp
    | cons _ _ => simp
  have hcp : t p = .absent ∨ t p = .dir := by have := hc p.length; rwa [List.take_length] at this
  cases c with
  | start =>
    simp only [dirsStep]
    split
    · rename_i he
      exact ⟨(exists_or _ hcp).1 he, by simp [toDo]; omega⟩
    · exact ⟨⟨hlen, Nat.le_refl _⟩, by simp [toDo]; omega⟩
  | isdir =>
    have h : t p = .dir := h
    simp only [dirsStep, h, Node.isdir, if_true]
    exact ⟨h, by simp [toDo]⟩
  | look n =>
    obtain ⟨h1, h2⟩ := h
    simp only [dirsStep]
    split
    · rename_i he
      refine ⟨⟨h1, h2, ?_⟩, by simp [toDo]; omega⟩
      rcases he with he | he
      · have : n - 1 = 0 := by omega
        rw [this, List.take_zero]
        exact hfs.root
      · exact (exists_or _ (hc _)).1 he
    · rename_i he
      exact ⟨⟨by omega, by omega⟩, by simp [toDo]; omega⟩
  | make n =>
    obtain ⟨h1, h2, h3⟩ := h
    have hparent : (p.take n).dropLast = p.take (n - 1) := by
      rw [List.dropLast_eq_take, List.take_take, List.length_take]
      congr 1
      omega
    have hsays : mkdirSays t (p.take n) ≠ .error := by
      unfold mkdirSays
      rw [hparent, h3]
      split <;> simp
    have hdone : mkdirDoes t (p.take n) (p.take n) = .dir := by
      rcases hc n with ha | hd
      · have : mkdirSays t (p.take n) = .made := by unfold mkdirSays; rw [hparent, h3, ha]; simp
        unfold mkdirDoes
        rw [if_pos this]
        simp [withDir]
      · exact does_dir _ hd
    simp only [dirsStep, if_neg hsays]
    split
    · rename_i hl
      have : n = p.length := by omega
      subst this
      rw [List.take_length] at hdone ⊢
      exact ⟨hdone, by simp [toDo]⟩
    · exact ⟨⟨by omega, by omega, hdone⟩, by simp [toDo]; omega⟩
  | returned => exact ⟨h, by simp [dirsStep, toDo]⟩
  | raised => exact absurd h id

/-- All that is known along every schedule. -/
private structure Inv (paths : Nat → List Str) (s : DirsSys) : Prop where
  fs : FileSystem s.tree
  clear : ∀ i n, s.tree ((paths i).take n) = .absent ∨ s.tree ((paths i).take n) = .dir
  fine : ∀ i, Fine (paths i) s.tree (s.pc i)

private theorem clear_does {t : FsTree} {p : List Str} (q : List Str) (h : t p = .absent ∨ t p = .dir) :
    mkdirDoes t q p = .absent ∨ mkdirDoes t q p = .dir := by
  rcases does_at t q p with h1 | ⟨_, _, h1⟩
  · rw [h1]; exact h
  · exact .inr h1

private theorem inv_ev {paths : Nat → List Str} (hp : ∀ i, paths i ≠ []) {s : DirsSys} (h : Inv paths s) (e : DirsEv) :
    Inv paths (dirsEv paths s e) ∧
    ∀ i, toDo (paths i).length ((dirsEv paths s e).pc i) ≤ toDo (paths i).length (s.pc i) - (if e = .call i then 1 else 0) := by
  cases e with
  | other q =>
    refine ⟨⟨does_fs q h.fs, fun i n => clear_does q (h.clear i n), fun i => fine_does q (h.fine i)⟩, fun i => by simp [dirsEv]⟩
  | call i =>
    obtain ⟨hf, hd⟩ := step_fine (hp i) h.fs (h.clear i) (h.fine i)
    have htree := step_tree (paths i) s.tree (s.pc i)
    refine ⟨⟨?_, ?_, ?_⟩, ?_⟩
    · show FileSystem (dirsStep (paths i) s.tree (s.pc i)).2
      rcases htree with e | ⟨n, e⟩ <;> rw [e]
      · exact h.fs
      · exact does_fs _ h.fs
    · intro j n
      show (dirsStep (paths i) s.tree (s.pc i)).2 _ = _ ∨ (dirsStep (paths i) s.tree (s.pc i)).2 _ = _
      rcases htree with e | ⟨k, e⟩ <;> rw [e]
      · exact h.clear j n
      · exact clear_does _ (h.clear j n)
    · intro j
      show Fine (paths j) (dirsStep (paths i) s.tree (s.pc i)).2 (if j = i then _ else s.pc j)
      split
      · rename_i e; subst e; exact hf
      · rcases htree with e | ⟨k, e⟩ <;> rw [e]
        · exact h.fine j
        · exact fine_does _ (h.fine j)
    · intro j
      show toDo _ (if j = i then _ else s.pc j) ≤ _
      split
      · rename_i e; subst e; simpa using hd
      · rename_i e
        have : ¬ (DirsEv.call i = .call j) := by simp; exact fun h => e h.symm
        simp [this]

private theorem inv_run {paths : Nat → List Str} (hp : ∀ i, paths i ≠ []) : ∀ (es : List DirsEv) (s : DirsSys), Inv paths s →
    Inv paths (dirsRun paths s es) ∧
    ∀ i, toDo (paths i).length ((dirsRun paths s es).pc i) ≤ toDo (paths i).length (s.pc i) - es.count (.call i)
  | [], s, h => ⟨h, fun i => by simp [dirsRun]⟩
  | e :: es, s, h => by
    obtain ⟨h1, h2⟩ := inv_ev hp h e
    obtain ⟨h3, h4⟩ := inv_run hp es _ h1
    refine ⟨h3, fun i => ?_⟩
    have a := h2 i
    have b := h4 i
    rw [List.count_cons]
    show toDo _ ((dirsRun paths (dirsEv paths s e) es).pc i) ≤ _
    by_cases he : e = .call i
    · simp only [he, if_true, beq_self_eq_true] at a ⊢
      subst he
      omega
    · have : (e == DirsEv.call i) = false := by simpa using he
      simp only [he, if_false, this] at a ⊢
      simp
      omega

private theorem new_ev (paths : Nat → List Str) (s : DirsSys) (e : DirsEv) (q : List Str) :
    (dirsEv paths s e).tree q = s.tree q ∨
    (s.tree q = .absent ∧ (dirsEv paths s e).tree q = .dir ∧ ((∃ i n, q = (paths i).take n) ∨ e = .other q)) := by
  cases e with
  | other p =>
    rcases does_at s.tree p q with h | ⟨rfl, h1, h2⟩
    · exact .inl h
    · exact .inr ⟨h1, h2, .inr rfl⟩
  | call i =>
    show (dirsStep (paths i) s.tree (s.pc i)).2 q = _ ∨ (_ ∧ (dirsStep (paths i) s.tree (s.pc i)).2 q = _ ∧ _)
    rcases step_tree (paths i) s.tree (s.pc i) with e | ⟨n, e⟩ <;> rw [e]
    · exact .inl rfl
    · rcases does_at s.tree ((paths i).take n) q with h | ⟨rfl, h1, h2⟩
      · exact .inl h
      · exact .inr ⟨h1, h2, .inl ⟨i, n, rfl⟩⟩

/-- C127: any number of calls, for any paths, whose folders are not files, in every schedule, while other processes make whatever directories:
when a call has returned, its path and all the folders it is in are directories; no call raises; and a call returns after at most two operations
for each name, and one. -/
theorem C127_ensured (paths : Nat → List Str) (hp : ∀ i, paths i ≠ []) (t : FsTree) (hfs : FileSystem t)
    (hc : ∀ i n, t ((paths i).take n) = .absent ∨ t ((paths i).take n) = .dir) (es : List DirsEv) :
    let s := dirsRun paths ⟨t, fun _ => .start⟩ es
    (∀ i, s.pc i = .returned → ∀ n, s.tree ((paths i).take n) = .dir) ∧
    (∀ i, s.pc i ≠ .raised) ∧
    (∀ i, 2 * (paths i).length + 1 ≤ es.count (.call i) → s.pc i = .returned) := by
  obtain ⟨hi, ht⟩ := inv_run hp es ⟨t, fun _ => .start⟩ ⟨hfs, hc, fun _ => trivial⟩
  refine ⟨?_, ?_, ?_⟩
  · intro i hr n
    have := hi.fine i
    rw [hr] at this
    exact prefix_dir hi.fs _ this n
  · intro i hr
    have := hi.fine i
    rw [hr] at this
    exact this
  · intro i hn
    have h0 := ht i
    have hf := hi.fine i
    have h1 : toDo (paths i).length .start = 2 * (paths i).length + 1 := rfl
    have h0 : toDo _ _ ≤ toDo (paths i).length .start - _ := h0
    rw [h1] at h0
    have h0 : toDo (paths i).length ((dirsRun paths ⟨t, fun _ => .start⟩ es).pc i) = 0 := by omega
    revert h0 hf
    generalize (dirsRun paths ⟨t, fun _ => .start⟩ es).pc i = c
    intro hf h0
    cases c with
    | start => simp [toDo] at h0
    | isdir => simp [toDo] at h0
    | look n => have := hf.1; simp [toDo] at h0; omega
    | make n => have := hf.2.1; simp [toDo] at h0; omega
    | returned => rfl
    | raised => exact absurd hf id

/-- C127: nothing is removed or replaced on the whole file system, and what is new are directories: the paths of the calls, folders they are
in, and what others made. -/
theorem C127_nothing_else (paths : Nat → List Str) (q : List Str) : ∀ (es : List DirsEv) (s : DirsSys),
    (dirsRun paths s es).tree q = s.tree q ∨
    (s.tree q = .absent ∧ (dirsRun paths s es).tree q = .dir ∧ ((∃ i n, q = (paths i).take n) ∨ .other q ∈ es))
  | [], s => .inl rfl
  | e :: es, s => by
    rcases C127_nothing_else paths q es (dirsEv paths s e) with h | ⟨h1, h2, h3⟩
    · rcases new_ev paths s e q with g | ⟨g1, g2, g3⟩
      · exact .inl (h.trans g)
      · refine .inr ⟨g1, h.trans g2, g3.imp id ?_⟩
        rintro rfl; simp
    · have hin : (∃ i n, q = (paths i).take n) ∨ .other q ∈ e :: es := h3.imp id (fun h => by simp [h])
      rcases new_ev paths s e q with g | ⟨g1, g2, g3⟩
      · exact .inr ⟨by rw [← g]; exact h1, h2, hin⟩
      · rw [g2] at h1; cases h1

/-- A file where the path, or a folder it is in, should be. -/
private structure Blocked (p : List Str) (t : FsTree) (c : DirsPc) : Prop where
  fs : FileSystem t
  file : ∃ k, 1 ≤ k ∧ k ≤ p.length ∧ t (p.take k) = .file
  last : (t p = .file ∧ (c = .start ∨ c = .isdir ∨ c = .raised)) ∨ (t p = .absent ∧ t p.dropLast ≠ .dir ∧ c ≠ .isdir ∧ c ≠ .returned)

private theorem blocked_start {p : List Str} {t : FsTree} (hfs : FileSystem t) {k : Nat} (h1 : 1 ≤ k) (h2 : k ≤ p.length)
    (hk : t (p.take k) = .file) : Blocked p t .start := by
  refine ⟨hfs, ⟨k, h1, h2, hk⟩, ?_⟩
  by_cases hl : k = p.length
  · subst hl
    rw [List.take_length] at hk
    exact .inl ⟨hk, .inl rfl⟩
  · right
    have hnd : t p.dropLast ≠ .dir := by
      intro hd
      have := prefix_dir hfs _ hd k
      rw [List.dropLast_eq_take, List.take_take, Nat.min_eq_left (by omega), hk] at this
      cases this
    refine ⟨?_, hnd, by simp, by simp⟩
    apply Classical.byContradiction
    intro hne
    exact hnd (hfs.inside p (by rintro rfl; simp at h2; omega) hne)

private theorem blocked_does {p : List Str} {t : FsTree} {c : DirsPc} (q : List Str) (h : Blocked p t c) : Blocked p (mkdirDoes t q) c := by
  obtain ⟨hfs, ⟨k, h1, h2, hk⟩, hl⟩ := h
  have hk' : mkdirDoes t q (p.take k) = .file := by
    rcases does_at t q (p.take k) with h | ⟨_, h, _⟩
    · rw [h, hk]
    · rw [hk] at h; cases h
  have hb := blocked_start (does_fs q hfs) h1 h2 hk'
  refine ⟨does_fs q hfs, ⟨k, h1, h2, hk'⟩, ?_⟩
  rcases hl with ⟨ha, hc⟩ | ⟨ha, hn, hc⟩
  · rcases does_at t q p with h | ⟨_, h, _⟩
    · exact .inl ⟨by rw [h, ha], hc⟩
    · rw [ha] at h; cases h
  · rcases hb.last with ⟨g, _⟩ | ⟨g, g2, _⟩
    · rcases does_at t q p with h | ⟨_, _, h⟩
      · rw [h, ha] at g; cases g
      · rw [h] at g; cases g
    · exact .inr ⟨g, g2, hc⟩

private theorem blocked_step {p : List Str} {t : FsTree} {c : DirsPc} (h : Blocked p t c) :
    Blocked p (dirsStep p t c).2 (dirsStep p t c).1 := by
  obtain ⟨hfs, hf, hl⟩ := h
  rcases hl with ⟨ha, rfl | rfl | rfl⟩ | ⟨ha, hn, h1, h2⟩
  · simp only [dirsStep, ha, Node.exists_, if_true]
    exact ⟨hfs, hf, .inl ⟨ha, by simp⟩⟩
  · simp only [dirsStep, ha, Node.isdir]
    exact ⟨hfs, hf, .inl ⟨ha, by simp⟩⟩
  · exact ⟨hfs, hf, .inl ⟨ha, by simp [dirsStep]⟩⟩
  · cases c with
    | start =>
      simp only [dirsStep, ha, Node.exists_]
      exact ⟨hfs, hf, .inr ⟨ha, hn, by simp, by simp⟩⟩
    | isdir => exact absurd rfl h1
    | returned => exact absurd rfl h2
    | raised => exact ⟨hfs, hf, .inr ⟨ha, hn, h1, h2⟩⟩
    | look n =>
      simp only [dirsStep]
      split <;> exact ⟨hfs, hf, .inr ⟨ha, hn, by simp, by simp⟩⟩
    | make n =>
      simp only [dirsStep]
      split
      · exact ⟨hfs, hf, .inr ⟨ha, hn, by simp, by simp⟩⟩
      · rename_i hs
        split
        · rename_i hl
          rw [List.take_of_length_le hl] at hs
          simp [mkdirSays, ha, hn] at hs
        · exact blocked_does _ ⟨hfs, hf, .inr ⟨ha, hn, by simp, by simp⟩⟩

private theorem blocked_run {paths : Nat → List Str} (i : Nat) : ∀ (es : List DirsEv) (s : DirsSys), Blocked (paths i) s.tree (s.pc i) →
    Blocked (paths i) (dirsRun paths s es).tree ((dirsRun paths s es).pc i)
  | [], _, h => h
  | e :: es, s, h => by
    refine blocked_run i es _ ?_
    cases e with
    | other q => exact blocked_does q h
    | call j =>
      by_cases hj : i = j
      · subst hj
        have := blocked_step h
        simpa [dirsEv] using this
      · show Blocked (paths i) (dirsStep (paths j) s.tree (s.pc j)).2 (if i = j then _ else s.pc i)
        rw [if_neg hj]
        rcases step_tree (paths j) s.tree (s.pc j) with e | ⟨n, e⟩ <;> rw [e]
        · exact h
        · exact blocked_does _ h

/-- C127: with a file where the path or a folder it is in should be, a call never returns, in whatever schedule, and the file stays. -/
theorem C127_file (paths : Nat → List Str) (t : FsTree) (hfs : FileSystem t) (i k : Nat) (h1 : 1 ≤ k) (h2 : k ≤ (paths i).length)
    (hk : t ((paths i).take k) = .file) (es : List DirsEv) :
    (dirsRun paths ⟨t, fun _ => .start⟩ es).pc i ≠ .returned ∧ (dirsRun paths ⟨t, fun _ => .start⟩ es).tree ((paths i).take k) = .file := by
  constructor
  · have := blocked_run (paths := paths) i es ⟨t, fun _ => .start⟩ (blocked_start hfs h1 h2 hk)
    rcases this.last with ⟨_, h | h | h⟩ | ⟨_, _, _, h⟩
    · rw [h]; simp
    · rw [h]; simp
    · rw [h]; simp
    · exact h
  · rcases C127_nothing_else paths ((paths i).take k) es ⟨t, fun _ => .start⟩ with h | ⟨h, _⟩
    · rw [h]; exact hk
    · have : t ((paths i).take k) = .absent := h
      rw [hk] at this; cases this

/-! Cases that meet the hypotheses: `a/b` and `a/c` made at once, nothing but the root being there; a file `a`. -/
private def twoPaths : Nat → List Str := fun i => if i = 0 then ["a".toList, "b".toList] else ["a".toList, "c".toList]
private def rootOnly : FsTree := fun q => if q = [] then .dir else .absent
private theorem root_fs : FileSystem rootOnly := ⟨rfl, by intro q hq hne; simp [rootOnly, hq] at hne⟩
example : FileSystem rootOnly ∧ (∀ i, twoPaths i ≠ []) ∧ ∀ i n, rootOnly ((twoPaths i).take n) = .absent ∨ rootOnly ((twoPaths i).take n) = .dir := by
  refine ⟨root_fs, ?_, ?_⟩
  · intro i; unfold twoPaths; split <;> simp
  · intro i n
    unfold rootOnly
    split <;> simp
example : let s := dirsRun twoPaths ⟨rootOnly, fun _ => .start⟩ [.call 0, .call 1, .call 0, .call 1, .call 0, .call 1, .call 0, .call 1, .call 1, .call 0]
    s.pc 0 = .returned ∧ s.pc 1 = .returned ∧ s.tree ["a".toList, "b".toList] = .dir ∧ s.tree ["a".toList, "c".toList] = .dir ∧
    s.tree ["b".toList] = .absent := by decide +kernel
example : FileSystem (fun q => if q = [] then .dir else if q = ["a".toList] then .file else .absent) := by
  refine ⟨rfl, ?_⟩
  intro q hq hne
  by_cases h : q = ["a".toList]
  · subst h; rfl
  · simp only [hq, h, if_false] at hne
    exact absurd rfl hne

end Props
