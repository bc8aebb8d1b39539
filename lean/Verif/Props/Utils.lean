import Verif.Lemmas.Utils
import Verif.Lemmas.Truth
/-
Properties C55-C58 and C69-C71: file names, extensions, directories, booleans and command names.
-/
namespace Props
open Py Model Spec Lemmas

/-! ### C55, C69: unique file names -/

/-- C55. For every file name and every finite set of existing files, the unique name is free, and it
is the first free one among the name itself and its numbered variations; the search ends after at
most one round more than there are files. -/
theorem C55_unique_filename (files : List Str) (fname : Str) (filegen : Str → Nat → Str) :
    ∃ k name, (∀ fuel, files.length < fuel →
        makeUniqueFilename (fun f => decide (f ∈ files)) fname filegen fuel = some name) ∧
      Variation fname k name ∧ name ∉ files ∧ ∀ j, j < k → ∀ v, Variation fname j v → v ∈ files := by
  have hex := exists_free files (generateFilenames fname) (fun i j => generateFilenames_inj)
  have hmin : ∀ k0, generateFilenames fname k0 ∉ files → ∃ k, k ≤ k0 ∧ generateFilenames fname k ∉ files ∧
      ∀ j, j < k → generateFilenames fname j ∈ files := by
    intro k0
    induction k0 using Nat.strongRecOn with
    | ind k0 ih =>
      intro hn
      by_cases hall : ∀ j, j < k0 → generateFilenames fname j ∈ files
      · exact ⟨k0, Nat.le_refl _, hn, hall⟩
      · rw [not_forall] at hall
        obtain ⟨j, hj⟩ := hall
        rw [Classical.not_imp] at hj
        obtain ⟨k, h1, h2⟩ := ih j hj.1 hj.2
        exact ⟨k, by omega, h2⟩
  obtain ⟨k0, hk0, hn0⟩ := hex
  obtain ⟨k, hle, hmin, hlt⟩ := hmin k0 hn0
  refine ⟨k, generateFilenames fname k, ?_, variation_iff.2 rfl, hmin, ?_⟩
  · intro fuel hf
    exact uniqueLoop_eq (Nat.zero_le _) (fun j _ hj => by simpa using hlt j hj) (by simpa using hmin) (by omega)
  · intro j hj v hv
    rw [variation_iff.1 hv]
    exact hlt j hj

/-- C55. On any file system, also with infinitely many files: a name that is returned is free, and the
names tried before it are taken. -/
theorem C55_sound (exist : Str → Bool) (fname : Str) (filegen : Str → Nat → Str) (fuel : Nat) (name : Str)
    (h : makeUniqueFilename exist fname filegen fuel = some name) :
    exist name = false ∧ ∃ k, Variation fname k name ∧ ∀ j, j < k → ∀ v, Variation fname j v → exist v = true := by
  obtain ⟨k, -, rfl, h1, h2⟩ := uniqueLoop_some h
  refine ⟨h1, k, variation_iff.2 rfl, ?_⟩
  intro j hj v hv
  rw [variation_iff.1 hv]
  exact h2 j (Nat.zero_le _) hj

example : makeUniqueFilename (fun f => decide (f ∈ ["a.b.txt".toList, "a.b1.txt".toList, "a.b3.txt".toList]))
    "a.b.txt".toList generateFilenames 4 = some "a.b2.txt".toList := by rfl
example : makeUniqueFilename (fun f => decide (f ∈ ["d.x/.rc".toList])) "d.x/.rc".toList generateFilenames 4
    = some "d.x/.rc1".toList := by rfl

/-- C69, for the generator that is the default: the name returned is the first free one that the
generator given by the caller produces. Missing: any other generator, see `C69_refuted`. -/
theorem C69_default_partial (exist : Str → Bool) (fname : Str) (fuel : Nat) (name : Str)
    (h : makeUniqueFilename exist fname generateFilenames fuel = some name) :
    ∃ k, name = generateFilenames fname k ∧ exist name = false ∧
      ∀ j, j < k → exist (generateFilenames fname j) = true := by
  obtain ⟨k, -, h0, h1, h2⟩ := uniqueLoop_some h
  exact ⟨k, h0, h1, fun j hj => h2 j (Nat.zero_le _) hj⟩

/-- C69 fails: the generator given is ignored. With a generator whose every name is free, the name
returned is none of its names. -/
theorem C69_refuted : ∃ (exist : Str → Bool) (fname : Str) (filegen : Str → Nat → Str),
    (∀ i, exist (filegen fname i) = false) ∧
    ∀ fuel name, makeUniqueFilename exist fname filegen fuel = some name → ∀ i, name ≠ filegen fname i := by
  refine ⟨fun _ => false, "a".toList, fun f i => f ++ '-' :: natStr i, fun _ => rfl, ?_⟩
  intro fuel name h i
  cases fuel with
  | zero => simp [makeUniqueFilename, uniqueLoop] at h
  | succ n =>
    simp only [makeUniqueFilename, uniqueLoop, Bool.false_eq_true, if_false, Option.some.injEq,
      generateFilenames] at h
    subst h
    intro e
    have := congrArg List.length e
    simp at this

/-! ### C56: file extensions -/

/-- C56. The result ends, in any letter case, with one of the extensions given. -/
theorem C56_ends (fname ext : Str) (exts : List Str) (r : Str) (h : ensureFileExt fname ext exts = .ok r) :
    ∃ e ∈ ext :: exts, e.map Char.toLower <:+ r.map Char.toLower := by
  unfold ensureFileExt at h
  split at h
  · rename_i hc
    simp only [Except.ok.injEq] at h
    subst h
    simp only [endsWithExt, List.any_eq_true] at hc
    obtain ⟨e, he, hs⟩ := hc
    refine ⟨e, he, ?_⟩
    rw [endsWith, List.isSuffixOf_iff_suffix, lower_eq, lower_eq] at hs
    refine hs.trans ?_
    refine ⟨(splitext fname).1.map Char.toLower, ?_⟩
    rw [← List.map_append, splitext_append]
  · refine ⟨ext, by simp, ?_⟩
    unfold appendExt at h
    cases hl : fname.getLast? with
    | none => rw [hl] at h; simp at h
    | some l =>
      rw [hl] at h
      simp only at h
      cases ext with
      | nil => simp at h
      | cons e es =>
        simp only [Except.ok.injEq] at h
        subst h
        by_cases hd : e = '.'
        · subst hd
          simp only [if_true]
          exact ⟨_, List.map_append.symm⟩
        · simp only [hd, if_false]
          refine ⟨((if l = '.' then fname.dropLast else fname) ++ ['.']).map Char.toLower, ?_⟩
          rw [← List.map_append]
          simp

/-- C56. The result is the name itself, or the name without a final dot, followed by the first
extension after exactly one dot. -/
theorem C56_keeps (fname ext : Str) (exts : List Str) (r : Str) (h : ensureFileExt fname ext exts = .ok r) :
    r = fname ∨ ∃ f body, (fname = f ∧ f.getLast? ≠ some '.' ∨ fname = f ++ ['.']) ∧
      (ext = '.' :: body ∨ ext = body ∧ body.head? ≠ some '.') ∧ r = f ++ '.' :: body := by
  unfold ensureFileExt at h
  split at h
  · simp only [Except.ok.injEq] at h
    exact .inl h.symm
  · right
    unfold appendExt at h
    cases hl : fname.getLast? with
    | none => rw [hl] at h; simp at h
    | some l =>
      rw [hl] at h
      simp only at h
      have hf : fname = fname.dropLast ++ [l] := by
        rcases List.eq_nil_or_concat fname with rfl | ⟨a, x, rfl⟩
        · simp at hl
        · simp at hl; subst hl; simp
      cases ext with
      | nil => simp at h
      | cons e es =>
        simp only [Except.ok.injEq] at h
        refine ⟨_, _, ?_, ?_, h.symm⟩
        · by_cases hd : l = '.'
          · subst hd
            right; simpa using hf
          · left; simp [hd, hl]
        · by_cases hd : e = '.'
          · simp [hd]
          · right; simp [hd]

/-- C56. Applying a plain extension (one dot at most, at its start; no slash) twice is the same as
applying it once, for names whose last component has something besides dots. Missing: extensions
with inner dots, names of folders, and the regex mode with an extension without dot; there it fails,
see below. -/
theorem C56_idempotent_partial (fname ext : Str) (exts : List Str) (r body : Str) (hb : ext = body ∨ ext = '.' :: body)
    (hd : '.' ∉ body) (hs : '/' ∉ body) (hn : Named fname) (h : ensureFileExt fname ext exts = .ok r) :
    ensureFileExt r ext exts = .ok r := by
  rcases C56_keeps fname ext exts r h with rfl | ⟨f, b, hf, hbb, rfl⟩
  · exact h
  · have hb' : b = body := by
      rcases hb with rfl | rfl
      · rcases hbb with rfl | ⟨rfl, -⟩
        · simp at hd
        · rfl
      · rcases hbb with e | ⟨rfl, e⟩
        · simpa using e.symm
        · simp at e
    subst hb'
    have hnf : Named f := by
      obtain ⟨name, hsuf, h1, c, h2, h3⟩ := hn
      rcases hf with ⟨rfl, -⟩ | rfl
      · exact ⟨name, hsuf, h1, c, h2, h3⟩
      · obtain ⟨d, e⟩ := hsuf
        rcases List.eq_nil_or_concat name with rfl | ⟨n', x, rfl⟩
        · simp at h2
        · have e' : (d ++ n') ++ [x] = f ++ ['.'] := by simpa using e
          obtain ⟨e1, e2⟩ := List.append_inj' e' rfl
          simp only [List.cons.injEq, and_true] at e2
          subst e2
          refine ⟨n', ⟨d, e1⟩, fun hh => h1 (by simp [hh]), c, ?_, h3⟩
          simp only [List.concat_eq_append, List.mem_append, List.mem_singleton] at h2
          exact h2.resolve_right h3
    have hsp : splitext (f ++ '.' :: b) = (f, '.' :: b) := splitext_of_hasExt ⟨rfl, hnf, b, rfl, hd, hs⟩
    unfold ensureFileExt
    rw [if_pos]
    simp only [endsWithExt, hsp, List.any_cons, Bool.or_eq_true]
    left
    rw [endsWith, List.isSuffixOf_iff_suffix]
    rcases hb with rfl | rfl
    · exact ⟨[lowerChar '.'], rfl⟩
    · exact List.suffix_refl _

example : Named "d/foo.".toList := ⟨"foo.".toList, by decide, by decide, 'f', by decide, by decide⟩
example : ensureFileExt "d/foo.".toList "BAR".toList [] = .ok "d/foo.BAR".toList ∧
    ensureFileExt "foo.xlt".toList ".xlsx".toList [".XLT".toList] = .ok "foo.xlt".toList := ⟨rfl, rfl⟩

/-- C56. A non-empty name never fails. -/
theorem C56_total (fname ext : Str) (exts : List Str) (h : fname ≠ []) : ∃ r, ensureFileExt fname ext exts = .ok r := by
  unfold ensureFileExt
  by_cases hc : endsWithExt fname (ext :: exts) = true
  · exact ⟨fname, by rw [if_pos hc]⟩
  · rw [if_neg hc]
    unfold appendExt
    cases hl : fname.getLast? with
    | none => exact absurd (List.getLast?_eq_none_iff.1 hl) h
    | some l =>
      cases ext with
      | nil => exact absurd (by simp [endsWithExt, endsWith, lower]) hc
      | cons e es => exact ⟨_, rfl⟩

/-- C56 fails for an extension with an inner dot: it is added each time. -/
theorem C56_inner_dot_refuted : ∃ fname ext r r2, Named fname ∧ ensureFileExt fname ext [] = .ok r ∧
    ensureFileExt r ext [] = .ok r2 ∧ r ≠ r2 :=
  ⟨"foo".toList, ".tar.gz".toList, "foo.tar.gz".toList, "foo.tar.gz.tar.gz".toList,
    ⟨"foo".toList, by decide, by decide, 'f', by decide, by decide⟩, rfl, rfl, by decide⟩

/-- C56 fails for the path of a folder: a plain extension is added each time. -/
theorem C56_folder_refuted : ∃ fname r r2, ensureFileExt fname ".bar".toList [] = .ok r ∧
    ensureFileExt r ".bar".toList [] = .ok r2 ∧ r ≠ r2 :=
  ⟨"dir/".toList, "dir/.bar".toList, "dir/.bar.bar".toList, rfl, rfl, by decide⟩

/-- C56 fails in the regex mode for every plain extension given without its dot: it is never
recognised, so it is added each time. -/
theorem C56_regex_refuted (f body : Str) (hne : body ≠ []) (hd : '.' ∉ body) (hs : '/' ∉ body) (hn : Named f)
    (hlast : ∀ l, body.getLast? = some l → l ≠ '\n') :
    ensureFileExtRegex (f ++ '.' :: body) body [] = .ok (f ++ '.' :: body ++ '.' :: body) := by
  have hsp : splitext (f ++ '.' :: body) = (f, '.' :: body) := splitext_of_hasExt ⟨rfl, hn, body, rfl, hd, hs⟩
  have hlow : ∀ x : Char, lowerChar x = '.' → x = '.' := by
    intro x hx
    unfold lowerChar at hx
    split at hx
    · rename_i hr
      have hv : (x.toNat + 0x20).isValidChar := by left; omega
      have h1 : (Char.ofNat (x.toNat + 0x20)).toNat = x.toNat + 0x20 := by
        rw [Char.ofNat, dif_pos hv]; rfl
      rw [hx] at h1
      have : '.'.toNat = 46 := rfl
      omega
    · exact hx
  unfold ensureFileExtRegex
  rw [if_neg]
  · unfold appendExt
    have hl : ∃ l, (f ++ '.' :: body).getLast? = some l ∧ l ≠ '.' := by
      rcases List.eq_nil_or_concat body with rfl | ⟨b, x, rfl⟩
      · exact absurd rfl hne
      · refine ⟨x, by simp [List.getLast?_cons], ?_⟩
        rintro rfl; simp at hd
    obtain ⟨l, hl, hld⟩ := hl
    rw [hl]
    simp only [hld, if_false]
    cases body with
    | nil => exact absurd rfl hne
    | cons e es =>
      have : e ≠ '.' := by rintro rfl; simp at hd
      simp [this]
  · simp only [endsWithRegex, hsp, List.any_nil, Bool.or_false, Bool.or_eq_true, beq_iff_eq]
    rintro (h | h)
    · have := congrArg List.length h
      simp [lower] at this
    · cases body with
      | nil => exact hne rfl
      | cons e es =>
        simp only [lower, List.map_cons, List.cons_append, List.cons.injEq] at h
        have := hlow e h.1.symm
        subst this; simp at hd

example : ensureFileExtRegex "foo.bar".toList "bar".toList [] = .ok "foo.bar.bar".toList := rfl

/-! ### C57: directories -/

/-- Calls of `ensure_dir_exists` on one path by any number of processes. -/
structure DirSys where
  node : Node
  pc : Nat → Pc

/-- One step of the system: a call advances, or something else changes what is at the path. -/
inductive DirStep (denied : Nat → Bool) (env : Node → Node → Prop) : DirSys → DirSys → Prop
  | call (s : DirSys) (i : Nat) : DirStep denied env s
      { node := (ensureDirStep (denied i) (s.pc i) s.node).2
        pc := fun j => if j = i then (ensureDirStep (denied i) (s.pc i) s.node).1 else s.pc j }
  | env (s : DirSys) (n : Node) : env s.node n → DirStep denied env s { s with node := n }

/-- The states that some schedule reaches. -/
inductive DirReach (denied : Nat → Bool) (env : Node → Node → Prop) (init : DirSys) : DirSys → Prop
  | refl : DirReach denied env init init
  | step {s t} : DirReach denied env init s → DirStep denied env s t → DirReach denied env init t

private theorem ensureDirStep_safe (d : Bool) (p : Pc) (n : Node) (h : n = .absent ∨ n = .dir)
    (hp : p = .returned ∨ p = .checking → n = .dir) :
    ((ensureDirStep d p n).2 = .absent ∨ (ensureDirStep d p n).2 = .dir) ∧
    (n = .dir → (ensureDirStep d p n).2 = .dir) ∧
    ((ensureDirStep d p n).1 = .returned ∨ (ensureDirStep d p n).1 = .checking → (ensureDirStep d p n).2 = .dir) ∧
    (d = false → p ≠ .raised → (ensureDirStep d p n).1 ≠ .raised) := by
  cases d <;> cases p <;> rcases h with rfl | rfl <;> simp_all [ensureDirStep, Node.exists_, Node.isdir]

/-- C57. Any number of concurrent calls, in every schedule, while other processes at most create the
directory: whenever a call has returned, the path is a directory; and unless creating is denied, no
call ever raises. Missing: other processes putting something else at the path, or a dangling link
being there; then it fails, see `C57_race_refuted` and `C57_dangling_refuted`. -/
theorem C57_race_partial (denied : Nat → Bool) (env : Node → Node → Prop) (henv : ∀ a b, env a b → b = a ∨ b = .dir)
    (init : DirSys) (h0 : ∀ i, init.pc i = .start) (hn : init.node = .absent ∨ init.node = .dir) (s : DirSys)
    (hr : DirReach denied env init s) :
    (∀ i, s.pc i = .returned → s.node = .dir) ∧ (∀ i, denied i = false → s.pc i ≠ .raised) := by
  have inv : (s.node = .absent ∨ s.node = .dir) ∧
      (∀ i, s.pc i = .returned ∨ s.pc i = .checking → s.node = .dir) ∧
      (∀ i, denied i = false → s.pc i ≠ .raised) := by
    induction hr with
    | refl =>
      refine ⟨hn, ?_, ?_⟩
      · intro i h; rw [h0 i] at h; simp at h
      · intro i _; rw [h0 i]; simp
    | @step s _ _ hst ih =>
      obtain ⟨i1, i2, i3⟩ := ih
      cases hst with
      | env n he =>
        rcases henv _ _ he with rfl | rfl
        · exact ⟨i1, i2, i3⟩
        · exact ⟨.inr rfl, fun _ _ => rfl, i3⟩
      | call i =>
        obtain ⟨k1, k2, k3, k4⟩ := ensureDirStep_safe (denied i) (s.pc i) s.node i1 (i2 i)
        refine ⟨k1, ?_, ?_⟩
        · intro j hj
          by_cases hji : j = i
          · simp only [hji, if_true] at hj; exact k3 hj
          · simp only [hji, if_false] at hj; exact k2 (i2 j hj)
        · intro j hj
          by_cases hji : j = i
          · subst hji; simpa using k4 hj (i3 j hj)
          · simpa [hji] using i3 j hj
  exact ⟨fun i h => inv.2.1 i (.inl h), inv.2.2⟩

/-- Two processes race from an absent path; both return and the directory is there. -/
example : ∃ s, DirReach (fun _ => false) (fun _ _ => False) ⟨.absent, fun _ => .start⟩ s ∧
    s.pc 0 = .returned ∧ s.pc 1 = .returned ∧ s.node = .dir := by
  refine ⟨_, .step (.step (.step (.step .refl (.call _ 0)) (.call _ 1)) (.call _ 1)) (.call _ 0), ?_, ?_, ?_⟩ <;> rfl

/-- C57. Something else than a directory at the path, left alone, makes every call raise. -/
theorem C57_file (denied : Nat → Bool) (init : DirSys) (h0 : ∀ i, init.pc i = .start) (hn : init.node = .file)
    (s : DirSys) (hr : DirReach denied (fun _ _ => False) init s) :
    s.node = .file ∧ ∀ i, s.pc i ≠ .returned := by
  have inv : s.node = .file ∧ ∀ i, s.pc i ≠ .returned ∧ s.pc i ≠ .making := by
    induction hr with
    | refl => exact ⟨hn, fun i => by rw [h0 i]; simp⟩
    | @step s _ _ hst ih =>
      obtain ⟨i1, i2⟩ := ih
      cases hst with
      | env n he => exact absurd he id
      | call i =>
        have hi := i2 i
        refine ⟨?_, ?_⟩
        · cases hpc : s.pc i <;> simp_all [ensureDirStep, Node.exists_, Node.isdir]
        · intro j
          by_cases hji : j = i
          · subst hji
            cases hpc : s.pc j <;> simp_all [ensureDirStep, Node.exists_, Node.isdir]
          · simp only [hji, if_false]; exact i2 j
  exact ⟨inv.1, fun i => (inv.2 i).1⟩

/-- C57 fails: when another process creates a file between the check and the creation, the call
returns as if the directory were there. -/
theorem C57_race_refuted : ∃ s, DirReach (fun _ => false) (fun a b => a = .absent ∧ b = .file)
    ⟨.absent, fun _ => .start⟩ s ∧ s.pc 0 = .returned ∧ s.node = .file := by
  refine ⟨_, .step (.step (.step .refl (.call _ 0)) (.env _ .file ⟨rfl, rfl⟩)) (.call _ 0), ?_, ?_⟩ <;> rfl

/-- C57 fails without any other process: on a dangling link the call returns and there is no directory. -/
theorem C57_dangling_refuted : ∃ s, DirReach (fun _ => false) (fun _ _ => False)
    ⟨.dangling, fun _ => .start⟩ s ∧ s.pc 0 = .returned ∧ s.node = .dangling := by
  refine ⟨_, .step (.step .refl (.call _ 0)) (.call _ 0), ?_, ?_⟩ <;> rfl

/-! ### C58: booleans -/

/-- The words read as false. -/
def falseWords : List Str := ["".toList, "no".toList, "false".toList, "off".toList, "0".toList]

/-- C58. Text is read as False exactly when it is a false word in any letter case, with any white
space around it; as True otherwise. -/
theorem C58_text (s : Str) : ∃ b, str2bool (.str s) = .ok b ∧
    (b = false ↔ ∃ core, Padded core s ∧ core.map Char.toLower ∈ falseWords) := by
  have hP : ∀ core, core.map Char.toLower ∈ falseWords → Padded core s → stripBy isSpaceU s = core := by
    rintro core hw ⟨pre, post, rfl, h1, h2⟩
    have nsp : ∀ c : Char, c.toLower ∈ "nofalse0".toList → isSpaceU c = false := by
      intro c hc
      rw [← lowerChar_eq] at hc
      by_cases hr : 0x41 ≤ c.toNat ∧ c.toNat ≤ 0x5a
      · simp only [isSpaceU]
        rw [List.contains_eq_mem]
        simp only [List.mem_cons, List.not_mem_nil, or_false, decide_eq_false_iff_not, not_or]
        omega
      · rw [lowerChar, if_neg hr] at hc
        have : ∀ c ∈ "nofalse0".toList, isSpaceU c = false := by decide
        exact this c hc
    have hall : ∀ c ∈ core, isSpaceU c = false := by
      intro c hc
      apply nsp
      have hm : c.toLower ∈ core.map Char.toLower := List.mem_map_of_mem hc
      have : ∀ w ∈ falseWords, ∀ x ∈ w, x ∈ "nofalse0".toList := by decide
      exact this _ hw _ hm
    exact stripBy_padded h1 h2 (fun c hc => hall c (List.mem_of_mem_head? hc)) (fun c hc => hall c (List.mem_of_getLast? hc))
  have hself : Padded (stripBy isSpaceU s) s := by
    obtain ⟨pre, post, e, h1, h2, -, -⟩ := stripBy_spec isSpaceU s
    exact ⟨pre, post, e, h1, h2⟩
  have hiff : (∃ core, Padded core s ∧ core.map Char.toLower ∈ falseWords) ↔
      (stripBy isSpaceU s).map Char.toLower ∈ falseWords := by
    constructor
    · rintro ⟨core, h1, h2⟩
      rw [hP core h2 h1]; exact h2
    · intro h; exact ⟨_, hself, h⟩
  rw [hiff]
  simp only [str2bool, lower_eq]
  generalize (stripBy isSpaceU s).map Char.toLower = w
  by_cases h1 : w ∈ ["yes".toList, "true".toList, "on".toList]
  · refine ⟨true, by rw [if_pos h1], ?_⟩
    have : ∀ w ∈ ["yes".toList, "true".toList, "on".toList], w ∉ falseWords := by decide
    simp [this w h1]
  · rw [if_neg h1]
    by_cases h2 : w ∈ ["no".toList, "false".toList, "off".toList, "0".toList]
    · refine ⟨false, by rw [if_pos h2], ?_⟩
      simp only [true_iff]
      exact List.mem_cons_of_mem _ h2
    · rw [if_neg h2]
      refine ⟨!w.isEmpty, rfl, ?_⟩
      simp only [Bool.not_eq_false', List.isEmpty_iff]
      constructor
      · rintro rfl; simp [falseWords]
      · intro h
        rcases List.mem_cons.1 h with h | h
        · exact h
        · exact absurd h h2

/-- C58. The true words, in any case and with any white space around, give True. -/
theorem C58_true_words (s core : Str) (hp : Padded core s)
    (hw : core.map Char.toLower ∈ ["yes".toList, "true".toList, "on".toList]) : str2bool (.str s) = .ok true := by
  obtain ⟨b, hb, hiff⟩ := C58_text s
  cases b with
  | true => exact hb
  | false =>
    exfalso
    obtain ⟨core', ⟨pre', post', e', hb1', hb2'⟩, hw'⟩ := hiff.1 rfl
    obtain ⟨pre, post, e, hb1, hb2⟩ := hp
    have nsp : ∀ c : Char, c.toLower ∈ "nofalse0yestruon".toList → isSpaceU c = false := by
      intro c hc
      rw [← lowerChar_eq] at hc
      by_cases hr : 0x41 ≤ c.toNat ∧ c.toNat ≤ 0x5a
      · simp only [isSpaceU]
        rw [List.contains_eq_mem]
        simp only [List.mem_cons, List.not_mem_nil, or_false, decide_eq_false_iff_not, not_or]
        omega
      · rw [lowerChar, if_neg hr] at hc
        have : ∀ c ∈ "nofalse0yestruon".toList, isSpaceU c = false := by decide
        exact this c hc
    have strip : ∀ (k : Str) (ws : List Str) (p q : Str), k.map Char.toLower ∈ ws →
        (∀ w ∈ ws, ∀ x ∈ w, x ∈ "nofalse0yestruon".toList) → Blank p → Blank q → stripBy isSpaceU (p ++ k ++ q) = k := by
      intro k ws p q hk hws hp hq
      have hall : ∀ c ∈ k, isSpaceU c = false := fun c hc =>
        nsp c (hws _ hk _ (List.mem_map_of_mem hc))
      exact stripBy_padded hp hq (fun c hc => hall c (List.mem_of_mem_head? hc)) (fun c hc => hall c (List.mem_of_getLast? hc))
    have h1 := strip core _ pre post hw (by decide) hb1 hb2
    have h2 := strip core' _ pre' post' hw' (by decide) hb1' hb2'
    rw [← e] at h1
    rw [← e', h1] at h2
    subst h2
    have : ∀ w ∈ ["yes".toList, "true".toList, "on".toList], w ∉ falseWords := by decide
    exact this _ hw hw'

/-- C58. Anything that is not text raises ValueError. -/
theorem C58_not_text (v : Doc) (h : ∀ s, v ≠ .str s) : str2bool v = .error .valueError := by
  cases v <;> first | rfl | exact absurd rfl (h _)

/-- C58. The lenient variant: what is empty or zero is False, text is read as text, and anything else
raises ValueError. -/
theorem C58_lenient (v : Doc) :
    (¬ Truth v → obj2bool v = .ok false) ∧
    (∀ s, v = .str s → s ≠ [] → obj2bool v = str2bool v) ∧
    (Truth v → (∀ s, v ≠ .str s) → obj2bool v = .error .valueError) := by
  unfold obj2bool
  refine ⟨fun h => ?_, fun s hs h => ?_, fun h hs => ?_⟩
  · rw [if_neg (by rw [Lemmas.truthy_iff]; exact h)]
  · subst hs
    rw [if_pos]
    cases s with
    | nil => exact absurd rfl h
    | cons c s => rfl
  · rw [if_pos ((Lemmas.truthy_iff v).2 h), C58_not_text v hs]

example : Padded "oFF".toList " \toFF\n".toList := ⟨" \t".toList, "\n".toList, rfl, by unfold Blank; decide, by unfold Blank; decide⟩
example : str2bool (.str " \toFF\n".toList) = .ok false ∧ str2bool (.str "12".toList) = .ok true ∧
    obj2bool (.int 1) = .error .valueError := ⟨rfl, rfl, rfl⟩

/-! ### C70, C71: command names and first lines -/

private theorem toLower_not_upper (c : Char) : isUpperA c.toLower = false := by
  rw [← lowerChar_eq]
  unfold lowerChar isUpperA
  simp only [Bool.and_eq_false_iff, decide_eq_false_iff_not, Char.not_le]
  split
  · rename_i hr
    have hv : (c.toNat + 0x20).isValidChar := by left; omega
    have h1 : (Char.ofNat (c.toNat + 0x20)).toNat = c.toNat + 0x20 := by
      rw [Char.ofNat, dif_pos hv]; rfl
    right
    show 90 < (Char.ofNat (c.toNat + 0x20)).toNat
    omega
  · rename_i hr
    by_cases h : c.toNat < 0x41
    · left; exact h
    · right
      show 90 < c.toNat
      omega

private theorem lower_under (c : Char) : lowerChar c = '_' ↔ c = '_' := by
  unfold lowerChar
  split
  · rename_i hr
    have hv : (c.toNat + 0x20).isValidChar := by left; omega
    have h1 : (Char.ofNat (c.toNat + 0x20)).toNat = c.toNat + 0x20 := by
      rw [Char.ofNat, dif_pos hv]; rfl
    constructor
    · intro h
      rw [h] at h1
      have : '_'.toNat = 95 := rfl
      omega
    · rintro rfl
      have : '_'.toNat = 95 := rfl
      omega
  · exact Iff.rfl

private theorem underscores_id {s : Str} (h : ∀ c ∈ s, isUpperA c = false) : ∀ b, underscores b s = s := by
  induction s with
  | nil => intro b; rfl
  | cons c s ih =>
    intro b
    rw [underscores, h c (by simp), Bool.and_false]
    simp [ih (fun x hx => h x (by simp [hx]))]

private theorem mem_underscores {s : Str} : ∀ {b : Bool} {c : Char}, c ∈ underscores b s → c = '_' ∨ c ∈ s := by
  induction s with
  | nil => intro b c h; simp [underscores] at h
  | cons x s ih =>
    intro b c h
    rw [underscores, List.mem_append] at h
    rcases h with h | h
    · split at h <;> simp only [List.mem_cons, List.not_mem_nil, or_false] at h
      · rcases h with h | h <;> simp [h]
      · simp [h]
    · rcases ih h with h | h <;> simp [h]

private theorem replace1_eq (s : Str) : replace1 '_' ['-'] s = s.map (fun c => if c = '_' then '-' else c) := by
  induction s with
  | nil => rfl
  | cons c s ih => rw [replace1, ih, List.map_cons]; split <;> simp [*]

private theorem snake_no_upper (s : Str) : ∀ c ∈ camelToSnake s, isUpperA c = false := by
  intro c hc
  rw [camelToSnake, lower_eq, List.mem_map] at hc
  obtain ⟨x, -, rfl⟩ := hc
  exact toLower_not_upper x

private theorem lower_id {s : Str} (h : ∀ c ∈ s, isUpperA c = false) : lower s = s := by
  induction s with
  | nil => rfl
  | cons c s ih =>
    have hc : lowerChar c = c := by
      have := h c (by simp)
      unfold lowerChar
      rw [if_neg]
      rintro ⟨h1, h2⟩
      simp only [isUpperA, Bool.and_eq_false_iff, decide_eq_false_iff_not, Char.not_le] at this
      rcases this with h3 | h3
      · have h3 : c.toNat < 65 := h3
        omega
      · have h3 : 90 < c.toNat := h3
        omega
    show lowerChar c :: lower s = c :: s
    rw [hc, ih (fun x hx => h x (by simp [hx]))]

/-- C70. A command name has no capital letter and no underscore. -/
theorem C70_letters (s : Str) : ∀ c ∈ camelToCmd s, ¬ ('A' ≤ c ∧ c ≤ 'Z') ∧ c ≠ '_' := by
  intro c hc
  rw [camelToCmd, replace1_eq, List.mem_map] at hc
  obtain ⟨x, hx, rfl⟩ := hc
  by_cases h : x = '_'
  · simp only [h, if_true]; decide
  · simp only [h, if_false]
    refine ⟨?_, h⟩
    have := snake_no_upper s x hx
    simp only [isUpperA, Bool.and_eq_false_iff, decide_eq_false_iff_not] at this
    rintro ⟨h1, h2⟩
    rcases this with h3 | h3
    · exact h3 h1
    · exact h3 h2

/-- C70. Apart from separators, a command name is the class name in small letters. -/
theorem C70_content (s : Str) : (camelToCmd s).filter (fun c => c != '-') =
    (s.map Char.toLower).filter (fun c => c != '-' && c != '_') := by
  rw [camelToCmd, replace1_eq, camelToSnake, ← lower_eq]
  suffices h : ∀ b, ((lower (underscores b s)).map (fun c => if c = '_' then '-' else c)).filter (fun c => c != '-') =
      (lower s).filter (fun c => c != '-' && c != '_') from h false
  induction s with
  | nil => intro b; rfl
  | cons c s ih =>
    intro b
    have hl : lower (underscores b (c :: s)) = (if b && isUpperA c then ['_', lowerChar c] else [lowerChar c]) ++
        lower (underscores (isLowerOrDigit c) s) := by
      rw [underscores]
      unfold lower
      rw [List.map_append]
      congr 1
      split <;> rfl
    have hr : lower (c :: s) = lowerChar c :: lower s := rfl
    rw [hl, hr, List.map_append, List.filter_append, ih]
    generalize lowerChar c = x
    have key : List.filter (fun c => c != '-') (List.map (fun c => if c = '_' then '-' else c) [x]) =
        List.filter (fun c => c != '-' && c != '_') [x] := by
      by_cases hx : x = '_'
      · subst hx; rfl
      · by_cases hy : x = '-'
        · subst hy; rfl
        · simp [hx, hy]
    have e2 : List.filter (fun c => c != '-' && c != '_') (x :: lower s) =
        List.filter (fun c => c != '-' && c != '_') [x] ++ List.filter (fun c => c != '-' && c != '_') (lower s) := by
      rw [← List.filter_append]; rfl
    rw [e2, ← key]
    congr 1
    split
    · simp
    · rfl

/-- C70. Converting a converted name changes nothing. -/
theorem C70_idempotent (s : Str) : camelToSnake (camelToSnake s) = camelToSnake s ∧
    camelToCmd (camelToCmd s) = camelToCmd s := by
  have idem : ∀ t : Str, (∀ c ∈ t, isUpperA c = false) → camelToSnake t = t := by
    intro t ht
    rw [camelToSnake, underscores_id ht, lower_id ht]
  refine ⟨idem _ (snake_no_upper s), ?_⟩
  have h1 : ∀ c ∈ camelToCmd s, isUpperA c = false := by
    intro c hc
    have := (C70_letters s c hc).1
    simp only [isUpperA, Bool.and_eq_false_iff, decide_eq_false_iff_not]
    by_cases h : 'A' ≤ c
    · right; intro h2; exact this ⟨h, h2⟩
    · left; exact h
  show replace1 '_' ['-'] (camelToSnake (camelToCmd s)) = _
  rw [idem _ h1, replace1_eq]
  have : ∀ c ∈ camelToCmd s, (if c = '_' then '-' else c) = c := by
    intro c hc
    rw [if_neg (C70_letters s c hc).2]
  conv => rhs; rw [← List.map_id (camelToCmd s)]
  exact List.map_congr_left this

/-- C70. A separator goes exactly between a small letter or digit and the capital after it. -/
theorem C70_separators (a b : Str) (x y : Char) :
    camelToCmd (a ++ [x, y] ++ b) = camelToCmd (a ++ [x]) ++
      (if (('a' ≤ x ∧ x ≤ 'z') ∨ ('0' ≤ x ∧ x ≤ '9')) ∧ ('A' ≤ y ∧ y ≤ 'Z') then ['-'] else []) ++
      camelToCmd (y :: b) := by
  have hu : ∀ (a : Str) p, underscores p (a ++ [x, y] ++ b) = underscores p (a ++ [x]) ++
      (if isLowerOrDigit x && isUpperA y then ['_'] else []) ++ underscores false (y :: b) := by
    intro a
    induction a with
    | nil =>
      intro p
      simp only [List.nil_append, List.cons_append, underscores, List.append_nil, Bool.false_and,
        Bool.false_eq_true, if_false, List.append_assoc]
      congr 1
      cases hc : (isLowerOrDigit x && isUpperA y) <;> simp
    | cons c a ih =>
      intro p
      have := ih (isLowerOrDigit c)
      simp only [List.cons_append, underscores, List.append_assoc] at this ⊢
      rw [this]
  have happ : ∀ u v : Str, replace1 '_' ['-'] (lower (u ++ v)) =
      replace1 '_' ['-'] (lower u) ++ replace1 '_' ['-'] (lower v) := by
    intro u v
    rw [replace1_eq, replace1_eq, replace1_eq, lower, lower, lower, List.map_append, List.map_append]
  simp only [camelToCmd, camelToSnake]
  rw [hu, happ, happ]
  have hc : (isLowerOrDigit x && isUpperA y) = true ↔
      (('a' ≤ x ∧ x ≤ 'z') ∨ ('0' ≤ x ∧ x ≤ '9')) ∧ ('A' ≤ y ∧ y ≤ 'Z') := by
    simp [isLowerOrDigit, isUpperA]
  by_cases h : (isLowerOrDigit x && isUpperA y) = true
  · rw [if_pos h, if_pos (hc.1 h)]; rfl
  · rw [if_neg h, if_neg (fun hh => h (hc.2 hh))]; rfl

example : camelToSnake "CO2DiceApp".toList = "co2_dice_app".toList ∧ camelToCmd "CO2DiceApp".toList = "co2-dice-app".toList :=
  ⟨rfl, rfl⟩

/-- C71. The first line: `before` are the lines above it, all blank. -/
theorem C71_first_line (before after : List Str) (line core : Str) (hb : ∀ l ∈ before, Blank l)
    (hnl : ∀ l ∈ before ++ line :: after, '\n' ∉ l) (hp : Padded core line) (hne : core ≠ [])
    (h1 : ∀ c, core.head? = some c → isSpaceU c = false) (h2 : ∀ c, core.getLast? = some c → isSpaceU c = false) :
    firstLine (join ['\n'] (before ++ line :: after)) = some core := by
  have hs := splitOn_join (sep := '\n') (before ++ line :: after) (by simp) hnl
  unfold firstLine
  rw [hs, List.find?_append]
  have hbf : before.find? (fun l => !(stripBy isSpaceU l).isEmpty) = none := by
    rw [List.find?_eq_none]
    intro l hl
    have : stripBy isSpaceU l = [] := stripBy_eq_nil.2 (hb l hl)
    simp [this]
  obtain ⟨pre, post, rfl, b1, b2⟩ := hp
  have hst := stripBy_padded b1 b2 h1 h2
  have hpos : (!(stripBy isSpaceU (pre ++ core ++ post)).isEmpty) = true := by rw [hst]; simpa using hne
  rw [hbf, List.find?_cons, hpos]
  exact congrArg some hst

/-- C71. There is no first line exactly when the text is blank. -/
theorem C71_none (doc : Str) : firstLine doc = none ↔ Blank doc := by
  unfold firstLine
  rw [Option.map_eq_none_iff, List.find?_eq_none]
  have key : ∀ ls : List Str, Blank (join ['\n'] ls) ↔ ∀ l ∈ ls, Blank l := by
    intro ls
    induction ls with
    | nil => simp [join, Blank]
    | cons p ls ih =>
      cases ls with
      | nil => simp [join]
      | cons q ls =>
        rw [join, List.forall_mem_cons, ← ih]
        unfold Blank
        simp only [List.mem_append, List.mem_singleton]
        constructor
        · intro h; exact ⟨fun c hc => h c (.inl (.inl hc)), fun c hc => h c (.inr hc)⟩
        · rintro ⟨ha, hb⟩ c ((hc | rfl) | hc)
          · exact ha c hc
          · decide
          · exact hb c hc
  have := key (splitOn '\n' doc)
  rw [join_splitOn] at this
  rw [this]
  constructor
  · intro h l hl
    have := h l hl
    simp only [Bool.not_eq_true', Bool.not_eq_false, List.isEmpty_iff] at this
    exact stripBy_eq_nil.1 this
  · intro h l hl
    have := stripBy_eq_nil.2 (h l hl)
    simp [this]

example : firstLine "\n  \n a b \nc".toList = some "a b".toList := rfl

end Props
