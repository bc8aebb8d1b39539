import Verif.Lemmas.UrlWalk
import Verif.Model.NormPaths
import Verif.Spec.NormPaths
/-
Lemmas about normalised paths.
-/
namespace Lemmas
open Py Model Spec

def dd : Str := ['.', '.']

/-- What the loop of `os.path.normpath` keeps. -/
structure Stack (rooted : Bool) (st : List Str) : Prop where
  form : ∃ ups names, st = List.replicate ups dd ++ names ∧ (rooted = true → ups = 0) ∧ ∀ n ∈ names, FileName n

theorem stack_elem {rooted : Bool} {st : List Str} (h : Stack rooted st) {x : Str} (hx : x ∈ st) :
    x ≠ [] ∧ x ≠ ['.'] ∧ '/' ∉ x := by
  obtain ⟨ups, names, rfl, -, hn⟩ := h.form
  rcases List.mem_append.1 hx with hx | hx
  · obtain ⟨-, rfl⟩ := List.mem_replicate.1 hx
    exact ⟨by decide, by decide, by decide⟩
  · have := hn x hx
    exact ⟨this.1, this.2.2.1, this.2.1⟩

theorem stack_step {rooted : Bool} {st : List Str} (h : Stack rooted st) {c : Str} (hc : '/' ∉ c) :
    Stack rooted (normStep rooted st c) := by
  obtain ⟨ups, names, rfl, hr, hn⟩ := h.form
  unfold normStep
  split
  · exact ⟨ups, names, rfl, hr, hn⟩
  · next h1 =>
    split
    · next h2 =>
      by_cases hd : c = dd
      · subst hd
        have hnn : names = [] ∧ (rooted = true → ups = 0 ∧ False) := by
          rcases h2 with h2 | ⟨h2, h3⟩ | h2
          · exact absurd rfl h2
          · simp only [List.append_eq_nil_iff] at h3
            exact ⟨h3.2, fun e => by rw [h2] at e; exact absurd e (by decide)⟩
          · rcases List.eq_nil_or_concat names with e | ⟨qs, q, e⟩
            · refine ⟨e, fun hro => ?_⟩
              rw [e, hr hro] at h2
              simp at h2
            · simp only [List.concat_eq_append] at e
              subst e
              rw [← List.append_assoc, List.getLast?_concat] at h2
              simp only [Option.some.injEq] at h2
              exact absurd h2 (hn q (by simp)).2.2.2
        refine ⟨ups + 1, [], ?_, fun hro => (hnn.2 hro).2.elim, by simp⟩
        rw [hnn.1]
        simp [List.replicate_succ']
      · refine ⟨ups, names ++ [c], by simp, hr, ?_⟩
        intro n hm
        rcases List.mem_append.1 hm with hm | hm
        · exact hn n hm
        · simp only [List.mem_singleton] at hm
          subst hm
          exact ⟨fun e => h1 (Or.inl e), hc, fun e => h1 (Or.inr e), hd⟩
    · next h2 =>
      simp only [not_or, Decidable.not_not] at h2
      rcases List.eq_nil_or_concat names with e | ⟨qs, q, e⟩
      · subst e
        cases ups with
        | zero => exact ⟨0, [], by simp, fun _ => rfl, by simp⟩
        | succ n =>
          exfalso
          apply h2.2.2
          simp [List.replicate_succ', dd]
      · simp only [List.concat_eq_append] at e
        subst e
        refine ⟨ups, qs, ?_, hr, fun n hm => hn n (by simp [hm])⟩
        rw [← List.append_assoc, List.dropLast_concat]

theorem stack_nil (rooted : Bool) : Stack rooted [] := ⟨0, [], by simp, fun _ => rfl, by simp⟩

theorem stack_foldl {rooted : Bool} {segs : List Str} (hs : ∀ s ∈ segs, '/' ∉ s) :
    ∀ {st}, Stack rooted st → Stack rooted (segs.foldl (normStep rooted) st) := by
  induction segs with
  | nil => intro st h; exact h
  | cons s segs ih => intro st h; exact ih (fun x hx => hs x (by simp [hx])) (stack_step h (hs s (by simp)))

theorem walked_snoc (h st : List Str) (c : Str) : walk h (st ++ [c]) = walk (walk h st) [c] := pathWalk_append h st [c]

theorem walk_step {rooted : Bool} {here st : List Str} (hh : rooted = true → here = []) (h : Stack rooted st) (c : Str) :
    walk here (normStep rooted st c) = walk (walk here st) [c] := by
  unfold normStep
  split
  · next h1 => simp [walk, h1]
  · next h1 =>
    split
    · exact walked_snoc _ _ _
    · next h2 =>
      simp only [not_or, Decidable.not_not] at h2
      obtain ⟨hc, h3, h4⟩ := h2
      subst hc
      have hw : walk (walk here st) [['.', '.']] = (walk here st).dropLast := by simp [walk]
      rw [hw]
      rcases List.eq_nil_or_concat st with e | ⟨qs, q, e⟩
      · subst e
        have : rooted = true := by
          cases rooted with
          | true => rfl
          | false => exact absurd ⟨rfl, rfl⟩ h3
        simp [walk, hh this]
      · simp only [List.concat_eq_append] at e
        subst e
        have hq := stack_elem h (x := q) (by simp)
        have hqd : q ≠ ['.', '.'] := by
          intro e
          apply h4
          rw [e]; simp
        rw [List.dropLast_concat, walked_snoc]
        simp only [walk, hq.1, hq.2.1, hqd, or_self, if_false, List.dropLast_concat]

theorem walk_foldl {rooted : Bool} {here : List Str} (hh : rooted = true → here = []) {segs : List Str}
    (hs : ∀ s ∈ segs, '/' ∉ s) :
    ∀ {st}, Stack rooted st → walk here (segs.foldl (normStep rooted) st) = walk (walk here st) segs := by
  induction segs with
  | nil => intro st _; simp [walk]
  | cons s segs ih =>
    intro st h
    rw [List.foldl_cons, ih (fun x hx => hs x (by simp [hx])) (stack_step h (hs s (by simp))),
      walk_step hh h, ← pathWalk_append]
    rfl

theorem mem_foldl {rooted : Bool} {segs : List Str} :
    ∀ {st : List Str} {x : Str}, x ∈ segs.foldl (normStep rooted) st → x ∈ st ∨ x ∈ segs := by
  induction segs with
  | nil => intro st x h; exact Or.inl h
  | cons s segs ih =>
    intro st x h
    rcases ih h with h | h
    · unfold normStep at h
      split at h
      · exact Or.inl h
      · split at h
        · rcases List.mem_append.1 h with h | h
          · exact Or.inl h
          · simp at h; exact Or.inr (by simp [h])
        · exact Or.inl ((List.dropLast_sublist st).subset h)
    · exact Or.inr (by simp [h])

/-- The segments kept by `os.path.normpath`. -/
def kept (p : Str) : List Str := (splitOn '/' p).foldl (normStep (startsWith ['/'] p)) []

/-- The text of a root and segments. -/
def normText (root : Str) (st : List Str) : Str := if root = [] ∧ st = [] then ['.'] else root ++ join ['/'] st

theorem stack_kept (p : Str) : Stack (startsWith ['/'] p) (kept p) :=
  stack_foldl (fun _ hs => not_mem_of_mem_splitOn hs) (stack_nil _)

theorem walk_kept {p : Str} {here : List Str} (hh : startsWith ['/'] p = true → here = []) :
    walk here (kept p) = walk here (splitOn '/' p) :=
  walk_foldl hh (fun _ hs => not_mem_of_mem_splitOn hs) (stack_nil _)

theorem join_eq_nil {st : List Str} (h : ∀ x ∈ st, x ≠ []) : join ['/'] st = [] ↔ st = [] := by
  match st with
  | [] => simp [join]
  | [x] => have := h x (by simp); simp [join, this]
  | x :: y :: l => simp [join]

theorem root_cases (p : Str) : (rootSlashes p = [] ∧ startsWith ['/'] p = false) ∨
    (rootSlashes p = ['/'] ∧ startsWith ['/'] p = true) ∨ (rootSlashes p = ['/', '/'] ∧ startsWith ['/'] p = true) := by
  unfold rootSlashes
  match p with
  | [] => simp [startsWith]
  | c :: t =>
    by_cases hc : c = '/'
    · subst hc
      split
      · right; right; simp [startsWith]
      · right; left; simp [startsWith]
    · left; simp [startsWith, List.isPrefixOf, Ne.symm hc]

theorem osNormpath_eq (p : Str) : osNormpath p = normText (rootSlashes p) (kept p) := by
  unfold osNormpath normText
  by_cases h : p = []
  · subst h; simp [rootSlashes, startsWith, kept, splitOn, normStep]
  · rw [if_neg h]
    have := join_eq_nil (fun x hx => (stack_elem (stack_kept p) hx).1)
    simp only [List.append_eq_nil_iff, kept] at this ⊢
    simp only [this]
    congr

/-! ### The segments of a normalised text -/

theorem splitOn_join_slash {st : List Str} (h : ∀ x ∈ st, '/' ∉ x) (tail : Bool) (hne : st ≠ []) :
    splitOn '/' (join ['/'] st ++ if tail then ['/'] else []) = st ++ if tail then [[]] else [] := by
  cases tail with
  | false => simpa using splitOn_join st hne h
  | true =>
    have : join ['/'] st ++ ['/'] = join ['/'] (st ++ [[]]) := by rw [join_snoc _ _ hne]
    simp only [if_true]
    rw [this]
    apply splitOn_join _ (by simp)
    intro p hp
    rcases List.mem_append.1 hp with hp | hp
    · exact h p hp
    · simp at hp; simp [hp]

/-- The segments of a text with root and last slash, but for empty ones. -/
theorem splitOn_normText {root : Str} {st : List Str} {tail : Bool} (hr : root ∈ [[], ['/'], ['/', '/']])
    (h : ∀ x ∈ st, x ≠ [] ∧ '/' ∉ x) :
    (splitOn '/' (normText root st ++ if tail then ['/'] else [])).filter (· ≠ []) =
      if root = [] ∧ st = [] then [['.']] else st := by
  have hf : st.filter (fun x => decide (x ≠ [])) = st :=
    List.filter_eq_self.2 (fun x hx => by simpa using (h x hx).1)
  have hs : ∀ x ∈ st, '/' ∉ x := fun x hx => (h x hx).2
  by_cases hst : st = []
  · subst hst
    simp only [List.mem_cons, List.not_mem_nil, or_false] at hr
    rcases hr with rfl | rfl | rfl <;> cases tail <;> decide
  · have key : (splitOn '/' (join ['/'] st ++ if tail then ['/'] else [])).filter (fun x => decide (x ≠ [])) = st := by
      rw [splitOn_join_slash hs tail hst, List.filter_append, hf]
      cases tail <;> simp
    simp only [List.mem_cons, List.not_mem_nil, or_false] at hr
    simp only [normText, hst, and_false, if_false, List.append_assoc]
    rcases hr with rfl | rfl | rfl
    · simpa using key
    · simp only [List.cons_append, List.nil_append, splitOn_sep]
      simpa using key
    · simp only [List.cons_append, List.nil_append, splitOn_sep]
      simpa using key

theorem join_first {st : List Str} (hne : st ≠ []) (h : ∀ x ∈ st, x ≠ [] ∧ '/' ∉ x) :
    ∃ c t, join ['/'] st = c :: t ∧ c ≠ '/' := by
  match st with
  | [] => exact absurd rfl hne
  | [] :: l => exact absurd rfl (h [] (by simp)).1
  | (c :: x) :: l =>
    have hc : c ≠ '/' := fun e => (h (c :: x) (by simp)).2 (by simp [e])
    cases l with
    | nil => exact ⟨c, x, rfl, hc⟩
    | cons y l => exact ⟨c, x ++ ['/'] ++ join ['/'] (y :: l), rfl, hc⟩

theorem join_final {st : List Str} (hne : st ≠ []) (h : ∀ x ∈ st, x ≠ [] ∧ '/' ∉ x) :
    ∃ a c, join ['/'] st = a ++ [c] ∧ c ≠ '/' := by
  rcases List.eq_nil_or_concat st with e | ⟨qs, q, e⟩
  · exact absurd e hne
  · simp only [List.concat_eq_append] at e
    subst e
    have hq := h q (by simp)
    rcases List.eq_nil_or_concat q with e | ⟨b, c, e⟩
    · exact absurd e hq.1
    · simp only [List.concat_eq_append] at e
      have hc : c ≠ '/' := fun e' => hq.2 (by rw [e, e']; simp)
      by_cases hqs : qs = []
      · subst hqs; exact ⟨b, c, by simp [join, e], hc⟩
      · exact ⟨join ['/'] qs ++ '/' :: b, c, by rw [join_snoc _ _ hqs, e]; simp, hc⟩

theorem root_normText {root : Str} {st : List Str} {tail : Bool} (hr : root ∈ [[], ['/'], ['/', '/']])
    (h : ∀ x ∈ st, x ≠ [] ∧ '/' ∉ x) (ht : tail = true → root = [] ∨ st ≠ []) :
    rootSlashes (normText root st ++ if tail then ['/'] else []) = root ∧
    startsWith ['/'] (normText root st ++ if tail then ['/'] else []) = decide (root ≠ []) := by
  simp only [List.mem_cons, List.not_mem_nil, or_false] at hr
  by_cases hst : st = []
  · subst hst
    rcases hr with rfl | rfl | rfl <;> cases tail <;> first | decide | exact absurd (ht rfl) (by decide)
  · obtain ⟨c, t, e, hc⟩ := join_first hst h
    have h1 : '/' ≠ c := Ne.symm hc
    simp only [normText, hst, and_false, if_false, e]
    rcases hr with rfl | rfl | rfl <;> simp [rootSlashes, startsWith, List.isPrefixOf, h1]

theorem foldl_filter {rooted : Bool} (segs : List Str) :
    ∀ st, (segs.filter (· ≠ [])).foldl (normStep rooted) st = segs.foldl (normStep rooted) st := by
  induction segs with
  | nil => intro st; rfl
  | cons s segs ih =>
    intro st
    by_cases hs : s = []
    · subst hs
      rw [List.filter_cons_of_neg (by simp), ih]
      simp [normStep]
    · rw [List.filter_cons_of_pos (by simpa using hs), List.foldl_cons, List.foldl_cons, ih]

theorem foldl_ups (ups : Nat) : ∀ k, (List.replicate ups dd).foldl (normStep false) (List.replicate k dd) =
    List.replicate (k + ups) dd := by
  induction ups with
  | zero => intro k; simp
  | succ n ih =>
    intro k
    rw [List.replicate_succ, List.foldl_cons]
    have : normStep false (List.replicate k dd) dd = List.replicate (k + 1) dd := by
      unfold normStep
      rw [if_neg (by decide)]
      cases k with
      | zero => rfl
      | succ k =>
        rw [if_pos (Or.inr (Or.inr (by rw [List.replicate_succ']; simp [dd])))]
        rw [← List.replicate_succ']
    rw [this, ih]
    congr 1; omega

theorem foldl_names {rooted : Bool} {ns : List Str} (h : ∀ n ∈ ns, FileName n) :
    ∀ acc, ns.foldl (normStep rooted) acc = acc ++ ns := by
  induction ns with
  | nil => intro acc; simp
  | cons n ns ih =>
    intro acc
    have hn := h n (by simp)
    have : normStep rooted acc n = acc ++ [n] := by
      unfold normStep
      rw [if_neg (fun e => e.elim hn.1 hn.2.2.1), if_pos (Or.inl hn.2.2.2)]
    rw [List.foldl_cons, this, ih (fun m hm => h m (by simp [hm]))]
    simp

theorem foldl_stack {rooted : Bool} {st : List Str} (h : Stack rooted st) : st.foldl (normStep rooted) [] = st := by
  obtain ⟨ups, names, rfl, hr, hn⟩ := h.form
  rw [List.foldl_append]
  cases rooted with
  | true => rw [hr rfl]; simpa using foldl_names hn []
  | false =>
    have := foldl_ups ups 0
    simp only [List.replicate_zero, Nat.zero_add] at this
    rw [this, foldl_names hn]

/-- Texts of a root and kept segments, with or without a last slash, are normalised to the text without it. -/
theorem osNormpath_normText {root : Str} {st : List Str} {tail : Bool} (hr : root ∈ [[], ['/'], ['/', '/']])
    (h : Stack (decide (root ≠ [])) st) (ht : tail = true → root = [] ∨ st ≠ []) :
    osNormpath (normText root st ++ if tail then ['/'] else []) = normText root st := by
  have hel : ∀ x ∈ st, x ≠ [] ∧ '/' ∉ x := fun x hx => ⟨(stack_elem h hx).1, (stack_elem h hx).2.2⟩
  obtain ⟨h1, h2⟩ := root_normText (tail := tail) hr hel ht
  rw [osNormpath_eq, h1]
  unfold kept
  rw [h2, ← foldl_filter, splitOn_normText hr hel]
  split
  · next e => rw [e.1, e.2]; rfl
  · rw [foldl_stack h]

theorem root_mem (p : Str) : rootSlashes p ∈ [[], ['/'], ['/', '/']] ∧ startsWith ['/'] p = decide (rootSlashes p ≠ []) := by
  rcases root_cases p with ⟨h1, h2⟩ | ⟨h1, h2⟩ | ⟨h1, h2⟩ <;> rw [h1, h2] <;> decide

theorem kept_elem {p x : Str} (hx : x ∈ kept p) : x ≠ [] ∧ '/' ∉ x :=
  ⟨(stack_elem (stack_kept p) hx).1, (stack_elem (stack_kept p) hx).2.2⟩

/-- What a text of a root and kept segments means. -/
theorem meant_normText {root : Str} {st : List Str} {tail : Bool} (cwd : List Str) (hr : root ∈ [[], ['/'], ['/', '/']])
    (h : ∀ x ∈ st, x ≠ [] ∧ '/' ∉ x) (ht : tail = true → root = [] ∨ st ≠ []) :
    meant cwd (normText root st ++ if tail then ['/'] else []) = walk (if root = [] then cwd else []) st := by
  obtain ⟨-, h2⟩ := root_normText (tail := tail) hr h ht
  have hh : ((normText root st ++ if tail then ['/'] else []).head? = some '/') ↔ root ≠ [] := by
    generalize normText root st ++ (if tail then ['/'] else []) = p at h2
    cases p with
    | nil => simp [startsWith] at h2 ⊢; exact h2
    | cons c t =>
      simp only [startsWith, List.isPrefixOf, Bool.and_true] at h2
      simp only [List.head?_cons, Option.some.injEq]
      constructor
      · rintro rfl; simpa using h2.symm
      · intro hne; rw [decide_eq_true hne] at h2; simpa using (beq_iff_eq.1 h2).symm
  unfold meant
  rw [← pathWalk_filter, splitOn_normText hr h]
  by_cases hro : root = []
  · have : ¬ ((normText root st ++ if tail then ['/'] else []).head? = some '/') := fun e => hh.1 e hro
    rw [if_neg this, if_pos hro]
    split
    · next e => rw [e.2]; simp [walk]
    · rfl
  · rw [if_pos (hh.2 hro), if_neg hro, if_neg (fun e => hro e.1)]

theorem normText_final (root : Str) (st : List Str) (hr : root ∈ [[], ['/'], ['/', '/']])
    (h : ∀ x ∈ st, x ≠ [] ∧ '/' ∉ x) :
    (normText root st).getLast? = some '/' ↔ root ≠ [] ∧ st = [] := by
  by_cases hst : st = []
  · subst hst
    simp only [List.mem_cons, List.not_mem_nil, or_false] at hr
    rcases hr with rfl | rfl | rfl <;> decide
  · obtain ⟨a, c, e, hc⟩ := join_final hst h
    simp only [normText, hst, and_false, if_false, e, iff_false]
    rw [← List.append_assoc, List.getLast?_concat]
    simpa using hc

/-- `normpath` gives the text of root and kept segments, perhaps with a slash. -/
theorem normpath_eq (p : Str) : ∃ tail : Bool, normpath p = normText (rootSlashes p) (kept p) ++ (if tail then ['/'] else []) ∧
    (tail = true ↔ isDirText p = true ∧ (rootSlashes p = [] ∨ kept p ≠ [])) := by
  have hl := normText_final (rootSlashes p) (kept p) (root_mem p).1 (fun x hx => kept_elem hx)
  unfold normpath
  rw [osNormpath_eq]
  by_cases hd : isDirText p = true
  · by_cases hg : (normText (rootSlashes p) (kept p)).getLast? = some '/'
    · refine ⟨false, by simp [hg], ?_⟩
      have := hl.1 hg
      simp [this.1, this.2]
    · refine ⟨true, by simp [hd, hg], ?_⟩
      simp only [true_iff]
      refine ⟨hd, ?_⟩
      by_cases hr : rootSlashes p = []
      · exact Or.inl hr
      · exact Or.inr (fun e => hg (hl.2 ⟨hr, e⟩))
  · refine ⟨false, by simp [hd], ?_⟩
    simp [hd]

theorem isDirText_iff {p : Str} (h : Simple p) : isDirText p = true ↔ OneSlash p := by
  rcases List.eq_nil_or_concat p with e | ⟨q, y, e⟩
  · subst e
    simp only [isDirText, List.reverse_nil, endsInSlash, Bool.false_eq_true, false_iff]
    rintro ⟨a, c, e, -⟩
    simp at e
  · simp only [List.concat_eq_append] at e
    subst e
    have hy : y ≠ '\n' := fun e => h.2 (by simp [e])
    have hyb : y ≠ '\\' := fun e => h.1 (by simp [e])
    have e1 : isDirText (q ++ [y]) = endsInSlash (y :: q.reverse) := by
      unfold isDirText
      rw [List.reverse_append]
      simp only [List.reverse_cons, List.reverse_nil, List.nil_append, List.cons_append]
      split
      · next e => exact absurd (List.cons.inj e).1 hy
      · rfl
    rw [e1]
    rcases List.eq_nil_or_concat q with e | ⟨r, x, e⟩
    · subst e
      simp only [List.reverse_nil, endsInSlash, Bool.false_eq_true, false_iff]
      rintro ⟨a, c, e, -⟩
      have := congrArg List.length e
      simp at this
    · simp only [List.concat_eq_append] at e
      subst e
      have hxb : x ≠ '\\' := fun e => h.1 (by simp [e])
      simp only [List.reverse_append, List.reverse_cons, List.reverse_nil, List.nil_append, List.cons_append,
        endsInSlash, isSlash, hyb, hxb, decide_false, Bool.or_false, Bool.and_eq_true, decide_eq_true_eq,
        Bool.not_eq_true', decide_eq_false_iff_not]
      constructor
      · rintro ⟨rfl, hx⟩
        exact ⟨r, x, by simp, hx⟩
      · rintro ⟨a, c, e, hc⟩
        have e' : r ++ [x] ++ [y] = a ++ [c] ++ ['/'] := by simpa using e
        have h1 := List.append_inj' e' rfl
        have h2 := List.append_inj' h1.1 rfl
        simp only [List.cons.injEq, and_true] at h1 h2
        exact ⟨h1.2, h2.2 ▸ hc⟩

theorem endsInSlash_iff (r : Str) : endsInSlash r = true ↔
    ∃ a c s, r = s :: c :: a ∧ c ≠ '/' ∧ c ≠ '\\' ∧ (s = '/' ∨ s = '\\') := by
  unfold endsInSlash
  split
  · next y x t =>
    simp only [isSlash, Bool.and_eq_true, Bool.or_eq_true, decide_eq_true_eq, Bool.not_eq_true',
      Bool.or_eq_false_iff, decide_eq_false_iff_not]
    constructor
    · rintro ⟨h1, h2, h3⟩
      exact ⟨t, x, y, rfl, h2, h3, h1⟩
    · rintro ⟨a, c, s, e, h2, h3, h1⟩
      injection e with e1 e2
      injection e2 with e2 e3
      subst e1; subst e2
      exact ⟨h1, h2, h3⟩
  · next hh =>
    simp only [Bool.false_eq_true, false_iff]
    rintro ⟨a, c, s, e, -⟩
    exact hh s c a e

theorem isDirText_exact (q : Str) : isDirText q = true ↔
    (∃ a c s, q = a ++ [c, s] ∧ c ≠ '/' ∧ c ≠ '\\' ∧ (s = '/' ∨ s = '\\')) ∨
    (∃ a c s, q = a ++ [c, s, '\n'] ∧ c ≠ '/' ∧ c ≠ '\\' ∧ (s = '/' ∨ s = '\\')) := by
  unfold isDirText
  split
  · next r e =>
    have eq : q = r.reverse ++ ['\n'] := by
      have := congrArg List.reverse e
      simpa using this
    rw [endsInSlash_iff]
    constructor
    · rintro ⟨a, c, s, e1, h⟩
      refine Or.inr ⟨a.reverse, c, s, ?_, h⟩
      rw [eq, e1]; simp
    · rintro (⟨a, c, s, e1, -, -, h⟩ | ⟨a, c, s, e1, h⟩)
      · rw [e1] at eq
        have := congrArg List.getLast? eq
        simp at this
        subst this
        exact absurd h (by decide)
      · refine ⟨a.reverse, c, s, ?_, h⟩
        rw [e1] at e
        simpa using e.symm
  · next hh =>
    rw [endsInSlash_iff]
    constructor
    · rintro ⟨a, c, s, e1, h⟩
      refine Or.inl ⟨a.reverse, c, s, ?_, h⟩
      have := congrArg List.reverse e1
      simpa using this
    · rintro (⟨a, c, s, e1, h⟩ | ⟨a, c, s, e1, h⟩)
      · refine ⟨a.reverse, c, s, ?_, h⟩
        rw [e1]; simp
      · exfalso
        refine hh (s :: c :: a.reverse) ?_
        rw [e1]; simp

theorem simple_normText {p : Str} (h : Simple p) (tail : Bool) :
    Simple (normText (rootSlashes p) (kept p) ++ if tail then ['/'] else []) := by
  have key : ∀ c, c ≠ '/' → c ≠ '.' → c ∉ p → c ∉ normText (rootSlashes p) (kept p) ++ (if tail then ['/'] else []) := by
    intro c h1 h2 h3 hm
    have ht : c ∉ (if tail then ['/'] else []) := by cases tail <;> simp [h1]
    have hr : c ∉ rootSlashes p := by
      rcases root_cases p with h | h | h <;> rw [h.1] <;> simp [h1]
    simp only [List.mem_append, ht, or_false] at hm
    unfold normText at hm
    split at hm
    · simp at hm; exact h2 hm
    · simp only [List.mem_append, hr, false_or] at hm
      rcases mem_join hm with e | ⟨x, hx, hcx⟩
      · exact h1 e
      · rcases mem_foldl hx with hx | hx
        · simp at hx
        · apply h3
          rw [← join_splitOn '/' p]
          exact mem_join_of_mem hx hcx
  exact ⟨key _ (by decide) (by decide) h.1, key _ (by decide) (by decide) h.2⟩

end Lemmas
