import Verif.Spec.UniqueNames
import Verif.Lemmas.Utils
/-
C132: unique file names for many processes.
-/
namespace Props
open Py Model Spec Lemmas

private theorem run_append (fnames : Nat → Str) : ∀ (es fs : List NameEv) (s : NameSys),
    nameRun fnames s (es ++ fs) = nameRun fnames (nameRun fnames s es) fs
  | [], _, _ => rfl
  | e :: es, fs, s => run_append fnames es fs (nameEv fnames s e)

private theorem mem_withFile {fs : List Str} {n f : Str} : f ∈ withFile fs n ↔ f ∈ fs ∨ f = n := by
  unfold withFile
  split
  · rename_i h
    exact ⟨.inl, fun h' => h'.elim id (fun e => e ▸ h)⟩
  · simp [List.mem_append]

private theorem step_taken {fname : Str} {fs : List Str} {k : Nat} (h : generateFilenames fname k ∈ fs) :
    nameStep fname fs (.ask k) = (.ask (k + 1), fs) := if_pos h

private theorem step_free {fname : Str} {fs : List Str} {k : Nat} (h : generateFilenames fname k ∉ fs) :
    nameStep fname fs (.ask k) = (.got (generateFilenames fname k), fs) := if_neg h

private theorem step_grows (fname : Str) (fs : List Str) (pc : NamePc) {f : Str} (h : f ∈ fs) : f ∈ (nameStep fname fs pc).2 := by
  cases pc with
  | ask k =>
    by_cases hm : generateFilenames fname k ∈ fs
    · rw [step_taken hm]; exact h
    · rw [step_free hm]; exact h
  | got n => exact mem_withFile.2 (.inl h)
  | made n => exact h

private theorem ev_grows (fnames : Nat → Str) (s : NameSys) (e : NameEv) (he : ∀ f, e ≠ .remove f) {f : Str} (h : f ∈ s.files) :
    f ∈ (nameEv fnames s e).files := by
  cases e with
  | call i => exact step_grows _ _ _ h
  | make g => exact mem_withFile.2 (.inl h)
  | remove g => exact absurd rfl (he g)

/-- One event and one call: what becomes of it. -/
private theorem ev_pc (fnames : Nat → Str) (s : NameSys) (e : NameEv) (i : Nat) :
    (nameEv fnames s e).pc i = if e = .call i then (nameStep (fnames i) s.files (s.pc i)).1 else s.pc i := by
  cases e with
  | call j =>
    by_cases h : j = i
    · subst h; simp [nameEv]
    · simp [nameEv, h, Ne.symm h]
  | make g => simp [nameEv]
  | remove g => simp [nameEv]

/-- The names asked for so far were taken, and still are if nobody removes files. -/
private theorem asked_taken (fnames : Nat → Str) (i : Nat) : ∀ (es : List NameEv) (s : NameSys), NobodyRemoves es →
    (∀ k, s.pc i = .ask k → ∀ j, j < k → generateFilenames (fnames i) j ∈ s.files) →
    ∀ k, (nameRun fnames s es).pc i = .ask k → ∀ j, j < k → generateFilenames (fnames i) j ∈ (nameRun fnames s es).files
  | [], _, _, h => h
  | e :: es, s, hr, h => by
    have he : ∀ f, e ≠ .remove f := fun f hf => hr f (hf ▸ List.mem_cons_self ..)
    refine asked_taken fnames i es (nameEv fnames s e) (fun f hf => hr f (List.mem_cons_of_mem _ hf)) ?_
    intro k hk j hj
    rw [ev_pc] at hk
    split at hk
    · cases hp : s.pc i with
      | ask m =>
        rw [hp] at hk
        by_cases hm : generateFilenames (fnames i) m ∈ s.files
        · rw [step_taken hm] at hk
          cases hk
          apply ev_grows _ _ _ he
          by_cases hjm : j = m
          · rw [hjm]; exact hm
          · exact h m hp j (by omega)
        · rw [step_free hm] at hk; cases hk
      | got n => rw [hp] at hk; cases hk
      | made n => rw [hp] at hk; cases hk
    · exact ev_grows _ _ _ he (h k hk j hj)

/-- A name that is being asked for. -/
private theorem got_now {fnames : Nat → Str} {s : NameSys} {i k : Nat} {n : Str} (hk : s.pc i = .ask k)
    (hn : ((nameEv fnames s (.call i)).pc i).name? = some n) : n = generateFilenames (fnames i) k ∧ n ∉ s.files := by
  rw [ev_pc, if_pos rfl, hk] at hn
  by_cases hm : generateFilenames (fnames i) k ∈ s.files
  · rw [step_taken hm] at hn; cases hn
  · rw [step_free hm] at hn
    cases hn
    exact ⟨rfl, hm⟩

/-- C132, whatever the schedule, with files made and removed by others meanwhile: a name is free at the moment in which a call returns it, and
it is the name given or one of its numbered variations. -/
theorem C132_free (fnames : Nat → Str) (files : List Str) (es : List NameEv) (i : Nat) (n : Str)
    (hbefore : ((nameRun fnames (.start files) es).pc i).name? = none)
    (hafter : ((nameRun fnames (.start files) (es ++ [.call i])).pc i).name? = some n) :
    n ∉ (nameRun fnames (.start files) es).files ∧ ∃ k, Variation (fnames i) k n := by
  rw [run_append] at hafter
  cases hp : (nameRun fnames (.start files) es).pc i with
  | ask k =>
    obtain ⟨rfl, h⟩ := got_now hp hafter
    exact ⟨h, k, variation_iff.2 rfl⟩
  | got m => rw [hp] at hbefore; cases hbefore
  | made m => rw [hp] at hbefore; cases hbefore

/-- C132. If nobody removes files, the name that a call returns is the first one that is free at that moment, among the name given and its
numbered variations, whatever others make meanwhile. -/
theorem C132_first (fnames : Nat → Str) (files : List Str) (es : List NameEv) (hr : NobodyRemoves es) (i : Nat) (n : Str)
    (hbefore : ((nameRun fnames (.start files) es).pc i).name? = none)
    (hafter : ((nameRun fnames (.start files) (es ++ [.call i])).pc i).name? = some n) :
    n ∉ (nameRun fnames (.start files) es).files ∧
      ∃ k, Variation (fnames i) k n ∧ ∀ j, j < k → ∀ v, Variation (fnames i) j v → v ∈ (nameRun fnames (.start files) es).files := by
  rw [run_append] at hafter
  cases hp : (nameRun fnames (.start files) es).pc i with
  | ask k =>
    obtain ⟨rfl, h⟩ := got_now hp hafter
    refine ⟨h, k, variation_iff.2 rfl, ?_⟩
    intro j hj v hv
    rw [variation_iff.1 hv]
    exact asked_taken fnames i es (.start files) hr (fun m hm j hj => by cases hm; omega) k hp j hj
  | got m => rw [hp] at hbefore; cases hbefore
  | made m => rw [hp] at hbefore; cases hbefore

private theorem named_stays (fnames : Nat → Str) (i : Nat) (n : Str) : ∀ (es : List NameEv) (s : NameSys),
    (s.pc i).name? = some n → ((nameRun fnames s es).pc i).name? = some n
  | [], _, h => h
  | e :: es, s, h => by
    refine named_stays fnames i n es _ ?_
    rw [ev_pc]
    split
    · cases hp : s.pc i with
      | ask k => rw [hp] at h; cases h
      | got m => rw [hp] at h; exact h
      | made m => rw [hp] at h; exact h
    · exact h

/-- C132. A call that has returned a name has returned it for good. -/
theorem C132_kept (fnames : Nat → Str) (files : List Str) (es fs : List NameEv) (i : Nat) (n : Str)
    (h : ((nameRun fnames (.start files) es).pc i).name? = some n) :
    ((nameRun fnames (.start files) (es ++ fs)).pc i).name? = some n := by
  rw [run_append]
  exact named_stays fnames i n fs _ h

private theorem turns (fnames : Nat → Str) (i : Nat) (all : List Str) : ∀ (es : List NameEv) (s : NameSys) (t : Nat),
    OnlyFiles fnames s es all →
    ((s.pc i = .ask t ∧ ∀ j, j < t → generateFilenames (fnames i) j ∈ all) ∨ (s.pc i).name?.isSome = true) →
    ((nameRun fnames s es).pc i = .ask (t + es.count (.call i)) ∧
        ∀ j, j < t + es.count (.call i) → generateFilenames (fnames i) j ∈ all) ∨
      ((nameRun fnames s es).pc i).name?.isSome = true
  | [], _, _, _, h => by simpa [nameRun] using h
  | e :: es, s, t, ho, h => by
    have ho' : OnlyFiles fnames (nameEv fnames s e) es all := by
      intro b a hba f hf
      exact ho (e :: b) a (by rw [hba]; rfl) f hf
    rcases h with ⟨hp, ht⟩ | h
    · by_cases he : e = .call i
      · subst he
        have hpc : (nameEv fnames s (.call i)).pc i = (nameStep (fnames i) s.files (.ask t)).1 := by rw [ev_pc, if_pos rfl, hp]
        by_cases hm : generateFilenames (fnames i) t ∈ s.files
        · rw [step_taken hm] at hpc
          have := turns fnames i all es _ (t + 1) ho' (.inl ⟨hpc, by
            intro j hj
            by_cases hjt : j = t
            · rw [hjt]; exact ho [] (.call i :: es) rfl _ hm
            · exact ht j (by omega)⟩)
          rw [List.count_cons_self, show t + (es.count (.call i) + 1) = t + 1 + es.count (.call i) by omega]
          exact this
        · rw [step_free hm] at hpc
          right
          obtain ⟨m, hm⟩ : ∃ m, ((nameEv fnames s (.call i)).pc i).name? = some m := ⟨_, by rw [hpc]; rfl⟩
          show ((nameRun fnames (nameEv fnames s (.call i)) es).pc i).name?.isSome = true
          rw [named_stays fnames i m es _ hm]; rfl
      · have hpc : (nameEv fnames s e).pc i = .ask t := by rw [ev_pc, if_neg he, hp]
        rw [List.count_cons_of_ne he]
        exact turns fnames i all es _ t ho' (.inl ⟨hpc, ht⟩)
    · right
      obtain ⟨m, hm⟩ := Option.isSome_iff_exists.1 h
      rw [named_stays fnames i m (e :: es) s hm]; rfl

/-- C132. Every call returns: if there are never more than `all.length` different files, whatever is made and removed meanwhile, it returns after
at most one operation more than that. -/
theorem C132_ends (fnames : Nat → Str) (files : List Str) (es : List NameEv) (i : Nat) (all : List Str)
    (ho : OnlyFiles fnames (.start files) es all) (hturns : all.length < es.count (.call i)) :
    ∃ n, ((nameRun fnames (.start files) es).pc i).name? = some n := by
  rcases turns fnames i all es (.start files) 0 ho (.inl ⟨rfl, fun j hj => absurd hj (by omega)⟩) with ⟨-, h⟩ | h
  · obtain ⟨k, hk, hn⟩ := exists_free all (generateFilenames (fnames i)) (fun _ _ => generateFilenames_inj)
    exact absurd (h k (by omega)) hn
  · exact Option.isSome_iff_exists.1 h

/-- Of the calls: no two have the same name; names of files that were made are taken, those of files to be made are not. -/
private structure Apart (s : NameSys) : Prop where
  differ : ∀ i j n, i ≠ j → (s.pc i).name? = some n → (s.pc j).name? ≠ some n
  taken : ∀ i n, s.pc i = .made n → n ∈ s.files
  free : ∀ i n, s.pc i = .got n → n ∉ s.files

private theorem apart_step {fnames : Nat → Str} {s : NameSys} {e : NameEv} (h : Apart s) (he : ∀ f, e ≠ .remove f)
    (hp : ∀ i n, s.pc i = .got n → e = .call i) : Apart (nameEv fnames s e) := by
  cases e with
  | remove f => exact absurd rfl (he f)
  | make f =>
    have hno : ∀ i n, s.pc i ≠ .got n := fun i n hi => by cases hp i n hi
    exact ⟨h.differ, fun i n hi => mem_withFile.2 (.inl (h.taken i n hi)), fun i n hi => absurd hi (hno i n)⟩
  | call i =>
    have hno : ∀ j n, j ≠ i → s.pc j ≠ .got n := fun j n hj hg => by
      have := hp j n hg
      cases this
      exact hj rfl
    have hpc : ∀ j, (nameEv fnames s (.call i)).pc j = if j = i then (nameStep (fnames i) s.files (s.pc i)).1 else s.pc j :=
      fun j => rfl
    have hfiles : (nameEv fnames s (.call i)).files = (nameStep (fnames i) s.files (s.pc i)).2 := rfl
    cases hs : s.pc i with
    | ask k =>
      by_cases hm : generateFilenames (fnames i) k ∈ s.files
      · have hst : nameStep (fnames i) s.files (.ask k) = (.ask (k + 1), s.files) := step_taken hm
        rw [hs, hst] at hfiles
        simp only [hs, hst] at hpc
        refine ⟨?_, ?_, ?_⟩
        · intro a b n hab ha hb
          rw [hpc] at ha hb
          split at ha
          · cases ha
          · split at hb
            · cases hb
            · exact h.differ a b n hab ha hb
        · intro a n ha
          rw [hpc] at ha
          split at ha
          · cases ha
          · rw [hfiles]; exact h.taken a n ha
        · intro a n ha
          rw [hpc] at ha
          split at ha
          · cases ha
          · rw [hfiles]; exact h.free a n ha
      · have hst : nameStep (fnames i) s.files (.ask k) = (.got (generateFilenames (fnames i) k), s.files) := step_free hm
        rw [hs, hst] at hfiles
        simp only [hs, hst] at hpc
        have hother : ∀ j n, j ≠ i → (s.pc j).name? = some n → n ∈ s.files := by
          intro j n hj hn
          cases hq : s.pc j with
          | ask m => rw [hq] at hn; cases hn
          | got m => exact absurd hq (hno j m hj)
          | made m => rw [hq] at hn; cases hn; exact h.taken j n hq
        refine ⟨?_, ?_, ?_⟩
        · intro a b n hab ha hb
          rw [hpc] at ha hb
          split at ha
          · rename_i hai
            cases ha
            rw [if_neg (fun hbi => hab (hai.trans hbi.symm))] at hb
            exact hm (hother b _ (fun hbi => hab (hai.trans hbi.symm)) hb)
          · rename_i hai
            split at hb
            · cases hb
              exact hm (hother a _ hai ha)
            · exact h.differ a b n hab ha hb
        · intro a n ha
          rw [hpc] at ha
          split at ha
          · cases ha
          · rw [hfiles]; exact h.taken a n ha
        · intro a n ha
          rw [hpc] at ha
          split at ha
          · cases ha; rw [hfiles]; exact hm
          · rw [hfiles]; exact h.free a n ha
    | got m =>
      have hst : nameStep (fnames i) s.files (.got m) = (.made m, withFile s.files m) := rfl
      rw [hs, hst] at hfiles
      simp only [hs, hst] at hpc
      refine ⟨?_, ?_, ?_⟩
      · intro a b n hab ha hb
        rw [hpc] at ha hb
        split at ha
        · rename_i hai
          cases ha
          rw [if_neg (fun hbi => hab (hai.trans hbi.symm))] at hb
          exact h.differ i b _ (fun e => hab (hai.trans e)) (by rw [hs]; rfl) hb
        · split at hb
          · rename_i hai hbi
            cases hb
            exact h.differ i a _ (Ne.symm hai) (by rw [hs]; rfl) ha
          · exact h.differ a b n hab ha hb
      · intro a n ha
        rw [hpc] at ha
        rw [hfiles]
        split at ha
        · cases ha; exact mem_withFile.2 (.inr rfl)
        · exact mem_withFile.2 (.inl (h.taken a n ha))
      · intro a n ha
        rw [hpc] at ha
        split at ha
        · cases ha
        · rename_i hai; exact absurd ha (hno a n hai)
    | made m =>
      have hst : nameStep (fnames i) s.files (.made m) = (.made m, s.files) := rfl
      rw [hs, hst] at hfiles
      simp only [hs, hst] at hpc
      have hsame : ∀ j, (nameEv fnames s (.call i)).pc j = s.pc j := by
        intro j
        rw [hpc]
        split
        · rename_i hj; rw [hj, hs]
        · rfl
      exact ⟨fun a b n hab ha => by rw [hsame] at ha ⊢; exact h.differ a b n hab ha,
        fun a n ha => by rw [hsame] at ha; rw [hfiles]; exact h.taken a n ha,
        fun a n ha => by rw [hsame] at ha; rw [hfiles]; exact h.free a n ha⟩

private theorem apart_run (fnames : Nat → Str) : ∀ (es : List NameEv) (s : NameSys), Apart s → NobodyRemoves es →
    MadeAtOnce fnames s es → Apart (nameRun fnames s es)
  | [], _, h, _, _ => h
  | e :: es, s, h, hr, hm => by
    refine apart_run fnames es (nameEv fnames s e) (apart_step h (fun f hf => hr f (hf ▸ List.mem_cons_self ..)) ?_)
      (fun f hf => hr f (List.mem_cons_of_mem _ hf)) ?_
    · intro i n hi
      exact hm [] e es rfl i n hi
    · intro b x a hba i n hi
      exact hm (e :: b) x a (by rw [hba]; rfl) i n hi

/-- C132, partial: if whoever gets a name makes its file before anything else happens, and nobody removes files, then no two calls get the same
name, also when they are given the same one; and no file is there yet when a caller is about to make it, so that none is overwritten. Missing:
schedules in which others run between the return of a name and the making of its file (`C132_race_refuted`). -/
theorem C132_apart_partial (fnames : Nat → Str) (files : List Str) (es : List NameEv) (hr : NobodyRemoves es)
    (hm : MadeAtOnce fnames (.start files) es) :
    (∀ i j n, i ≠ j → ((nameRun fnames (.start files) es).pc i).name? = some n →
      ((nameRun fnames (.start files) es).pc j).name? ≠ some n) ∧
    ∀ i n, (nameRun fnames (.start files) es).pc i = .got n → n ∉ (nameRun fnames (.start files) es).files := by
  have := apart_run fnames es (.start files) ⟨fun _ _ _ _ h => (by cases h), fun _ _ h => (by cases h), fun _ _ h => (by cases h)⟩ hr hm
  exact ⟨this.differ, this.free⟩

/-- C132 is violated in general: whatever the name given and the files there are, two calls with the same name that run one after the other get
the same name, if the file is not made in between; the second caller overwrites the file of the first one. -/
theorem C132_race_refuted (fname : Str) (files : List Str) (hfree : fname ∉ files) :
    ∃ es, NobodyRemoves es ∧ (nameRun (fun _ => fname) (.start files) es).pc 0 = .made fname ∧
      (nameRun (fun _ => fname) (.start files) es).pc 1 = .made fname := by
  refine ⟨[.call 0, .call 1, .call 0, .call 1], by simp [NobodyRemoves], ?_, ?_⟩ <;>
    simp [nameRun, nameEv, NameSys.start, nameStep, generateFilenames, hfree]

/-- Two calls for the same name, the file of the first one being made in between, with another file made by others. -/
private def twoCalls : List NameEv := [.call 0, .call 0, .make "a1.txt".toList, .call 1, .call 1, .call 1, .call 1]

private def twoNames : Nat → Str := fun _ => "a.txt".toList

example : (nameRun twoNames (.start ["b".toList]) twoCalls).pc 0 = .made "a.txt".toList ∧
    (nameRun twoNames (.start ["b".toList]) twoCalls).pc 1 = .made "a2.txt".toList ∧
    (nameRun twoNames (.start ["b".toList]) twoCalls).files =
      ["b".toList, "a.txt".toList, "a1.txt".toList, "a2.txt".toList] := by decide +kernel

example : NobodyRemoves twoCalls := by simp [NobodyRemoves, twoCalls]

private theorem madeAtOnce_cons {fnames : Nat → Str} {s : NameSys} {e : NameEv} {es : List NameEv}
    (h : ∀ i n, s.pc i = .got n → e = .call i) (h' : MadeAtOnce fnames (nameEv fnames s e) es) : MadeAtOnce fnames s (e :: es) := by
  intro b x a hba i n hi
  cases b with
  | nil => cases hba; exact h i n hi
  | cons y b => cases hba; exact h' b x a rfl i n hi

private theorem two_step {s : NameSys} {e : NameEv} (h2 : ∀ i, s.pc (i + 2) = .ask 0) (he : ∀ i, e ≠ .call (i + 2)) :
    ∀ i, (nameEv twoNames s e).pc (i + 2) = .ask 0 := by
  intro i
  rw [ev_pc, if_neg (he i), h2]

private theorem two_got {s : NameSys} {e : NameEv} (h2 : ∀ i, s.pc (i + 2) = .ask 0) {a b : NamePc} (ha : s.pc 0 = a) (hb : s.pc 1 = b)
    (h0 : ∀ n, a = .got n → e = .call 0) (h1 : ∀ n, b = .got n → e = .call 1) : ∀ i n, s.pc i = .got n → e = .call i
  | 0, n, h => h0 n (ha.symm.trans h)
  | 1, n, h => h1 n (hb.symm.trans h)
  | i + 2, n, h => by rw [h2] at h; cases h

/-- In that schedule files are made at once. -/
example : MadeAtOnce twoNames (.start ["b".toList]) twoCalls := by
  have w0 : ∀ i, (NameSys.start ["b".toList]).pc (i + 2) = .ask 0 := fun _ => rfl
  have w1 := two_step (e := .call 0) w0 (fun _ => by simp)
  have w2 := two_step (e := .call 0) w1 (fun _ => by simp)
  have w3 := two_step (e := .make "a1.txt".toList) w2 (fun _ => by simp)
  have w4 := two_step (e := .call 1) w3 (fun _ => by simp)
  have w5 := two_step (e := .call 1) w4 (fun _ => by simp)
  have w6 := two_step (e := .call 1) w5 (fun _ => by simp)
  unfold twoCalls
  refine madeAtOnce_cons (two_got w0 (a := .ask 0) (b := .ask 0) rfl rfl (by simp) (by simp)) ?_
  refine madeAtOnce_cons (two_got w1 (a := .got "a.txt".toList) (b := .ask 0) (by decide +kernel) (by decide +kernel) (by simp) (by simp)) ?_
  refine madeAtOnce_cons (two_got w2 (a := .made "a.txt".toList) (b := .ask 0) (by decide +kernel) (by decide +kernel) (by simp) (by simp)) ?_
  refine madeAtOnce_cons (two_got w3 (a := .made "a.txt".toList) (b := .ask 0) (by decide +kernel) (by decide +kernel) (by simp) (by simp)) ?_
  refine madeAtOnce_cons (two_got w4 (a := .made "a.txt".toList) (b := .ask 1) (by decide +kernel) (by decide +kernel) (by simp) (by simp)) ?_
  refine madeAtOnce_cons (two_got w5 (a := .made "a.txt".toList) (b := .ask 2) (by decide +kernel) (by decide +kernel) (by simp) (by simp)) ?_
  refine madeAtOnce_cons
    (two_got w6 (a := .made "a.txt".toList) (b := .got "a2.txt".toList) (by decide +kernel) (by decide +kernel) (by simp) (by simp)) ?_
  intro b e a h
  cases b <;> cases h

/-- With at most three files, a call returns after four operations at most. -/
example : ∃ es, OnlyFiles twoNames (.start ["a.txt".toList, "b".toList]) es ["a.txt".toList, "b".toList, "a1.txt".toList] ∧
    ["a.txt".toList, "b".toList, "a1.txt".toList].length < es.count (.call 0) := by
  refine ⟨[.call 0, .call 0, .call 0, .call 0], ?_, by decide +kernel⟩
  have h : ∀ m, (List.replicate m (NameEv.call 0)).length ≤ 4 → ∀ f,
      f ∈ (nameRun twoNames (.start ["a.txt".toList, "b".toList]) (List.replicate m (.call 0))).files →
      f ∈ ["a.txt".toList, "b".toList, "a1.txt".toList] := by
    intro m hm
    rw [List.length_replicate] at hm
    match m, hm with
    | 0, _ => decide +kernel
    | 1, _ => decide +kernel
    | 2, _ => decide +kernel
    | 3, _ => decide +kernel
    | 4, _ => decide +kernel
  intro b a hba
  have hb : b = List.replicate b.length (.call 0) := by
    apply List.eq_replicate_iff.2 ⟨rfl, ?_⟩
    intro x hx
    have : x ∈ [NameEv.call 0, .call 0, .call 0, .call 0] := hba ▸ List.mem_append_left _ hx
    simpa using this
  have hl : b.length ≤ 4 := by
    have := congrArg List.length hba
    simp at this
    omega
  rw [hb]
  exact h b.length (by rw [List.length_replicate]; exact hl)

end Props
