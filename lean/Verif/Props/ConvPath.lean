import Verif.Props.NormPaths
/-
Paths with variables (C113).
-/
namespace Props
open Py Model Spec Lemmas

/-- No share directly follows a variable, or another dollar sign. -/
def SharesApart : List PathPart → Prop
  | [] => True
  | .var _ :: ps => (∀ t, ps.flatMap PathPart.source ≠ '$' :: '\\' :: t) ∧ SharesApart ps
  | .dollar :: ps => (∀ t, ps.flatMap PathPart.source ≠ '$' :: '\\' :: t) ∧ SharesApart ps
  | _ :: ps => SharesApart ps

theorem isWordA_iff (c : Char) : isWordA c = true ↔ WordChar c := by
  unfold isWordA isAsciiLetter isAsciiDigit WordChar
  simp only [Bool.or_eq_true, Bool.and_eq_true, decide_eq_true_eq]
  constructor
  · rintro (((h | h) | h) | h)
    all_goals simp [h]
  · rintro (h | h | h | h)
    all_goals simp [h]

/-! ### Masking -/

theorem mask_skip {c : Char} (h : c ≠ '$') (t : Str) : replace2 '$' '\\' uncMask (c :: t) = c :: replace2 '$' '\\' uncMask t := by
  cases t with
  | nil => rfl
  | cons d t => rw [replace2, if_neg (fun e => h e.1)]

theorem mask_text {a : Str} (h : '$' ∉ a) (t : Str) : replace2 '$' '\\' uncMask (a ++ t) = a ++ replace2 '$' '\\' uncMask t := by
  induction a with
  | nil => rfl
  | cons c a ih =>
    simp only [List.mem_cons, not_or] at h
    rw [List.cons_append, mask_skip (Ne.symm h.1), ih h.2]
    rfl

theorem mask_dollar {d : Char} (h : d ≠ '\\') (t : Str) :
    replace2 '$' '\\' uncMask ('$' :: d :: t) = '$' :: replace2 '$' '\\' uncMask (d :: t) := by
  rw [replace2, if_neg (fun e => h e.2)]

/-- Parts while shares are masked. -/
def masked : PathPart → PathPart
  | .share => .text uncMask
  | p => p

theorem wordChar_not {c x : Char} (h : WordChar c) (hx : isWordA x = false) : c ≠ x := by
  rintro rfl
  rw [(isWordA_iff c).2 h] at hx
  exact absurd hx (by decide)

theorem mask_source {ps : List PathPart} (h : WellWritten ps) :
    replace2 '$' '\\' uncMask (ps.flatMap PathPart.source) = (ps.map masked).flatMap PathPart.source := by
  induction ps with
  | nil => rfl
  | cons p ps ih =>
    cases p with
    | text s =>
      simp only [WellWritten] at h
      simp only [List.flatMap_cons, List.map_cons, masked, PathPart.source]
      rw [mask_text h.1, ih h.2]
    | share =>
      simp only [WellWritten] at h
      simp only [List.flatMap_cons, List.map_cons, masked, PathPart.source]
      have : "$\\".toList = ['$', '\\'] := by decide
      rw [this]
      simp only [List.cons_append, List.nil_append, replace2, and_self, if_true]
      rw [ih h]
    | var n =>
      simp only [WellWritten] at h
      obtain ⟨h1, h2, -, h4⟩ := h
      simp only [List.flatMap_cons, List.map_cons, masked, PathPart.source]
      cases n with
      | nil => exact absurd rfl h1
      | cons d n =>
        have hd : d ≠ '\\' := wordChar_not (h2 d (by simp)) (by decide)
        have hn : '$' ∉ d :: n := fun hm => wordChar_not (h2 _ hm) (by decide) rfl
        have e : '$' :: d :: n ++ ps.flatMap PathPart.source = '$' :: d :: (n ++ ps.flatMap PathPart.source) := rfl
        rw [e, mask_dollar hd, ← List.cons_append, mask_text hn, ih h4]
        rfl
    | braced n =>
      simp only [WellWritten] at h
      obtain ⟨h1, h2, h3⟩ := h
      simp only [List.flatMap_cons, List.map_cons, masked, PathPart.source]
      have e : ∀ t, "${".toList ++ n ++ "}".toList ++ t = '$' :: '{' :: (n ++ '}' :: t) := by intro t; simp
      rw [e, e, mask_dollar (by decide), mask_skip (by decide), mask_text h2, mask_skip (by decide), ih h3]
    | dollar =>
      simp only [WellWritten] at h
      have e : "$".toList = ['$'] := by decide
      simp only [List.flatMap_cons, List.map_cons, masked, PathPart.source, e, List.cons_append, List.nil_append]
      rw [← ih h.2]
      cases hp : ps.flatMap PathPart.source with
      | nil => rfl
      | cons c t => exact mask_dollar (h.1 c t hp).2.1 t

/-! ### Expanding -/

theorem expand_text (env : Str → Option Str) {a : Str} (h : '$' ∉ a) (t : Str) :
    ∀ n, a.length ≤ n → expandGo env n (a ++ t) = a ++ expandGo env (n - a.length) t := by
  induction a with
  | nil => intro n _; simp
  | cons c a ih =>
    intro n hn
    simp only [List.mem_cons, not_or] at h
    cases n with
    | zero => simp at hn
    | succ n =>
      simp only [List.length_cons, Nat.add_le_add_iff_right] at hn
      rw [List.cons_append, expandGo, if_neg (Ne.symm h.1), ih h.2 n hn]
      simp only [List.length_cons, Nat.add_sub_add_right, List.cons_append]

theorem varRef_word {n rest : Str} (h1 : n ≠ []) (h2 : ∀ c ∈ n, WordChar c) (h3 : ∀ c t, rest = c :: t → isWordA c = false) :
    varRef (n ++ rest) = some (n, n, rest) := by
  have ht : (n ++ rest).takeWhile isWordA = n := by
    rw [List.takeWhile_append_of_pos (fun c hc => (isWordA_iff c).2 (h2 c hc))]
    cases rest with
    | nil => simp
    | cons c t => rw [List.takeWhile_cons_of_neg (by rw [h3 c t rfl]; decide)]; simp
  unfold varRef
  split
  · next s e =>
    cases n with
    | nil => exact absurd rfl h1
    | cons d n =>
      simp only [List.cons_append, List.cons.injEq] at e
      exact absurd e.1 (wordChar_not (h2 d (by simp)) (by decide))
  · simp only [ht, h1, if_false, List.drop_left]

theorem varRef_braced {n rest : Str} (h : '}' ∉ n) : varRef ('{' :: (n ++ '}' :: rest)) = some (n, '{' :: (n ++ ['}']), rest) := by
  simp only [varRef, cut_append _ _ h]

/-- Masked shares are words, other beginnings stay. -/
theorem head_masked {ps : List PathPart} (h1 : ∀ c t, ps.flatMap PathPart.source = c :: t → ¬ WordChar c)
    (h2 : ∀ t, ps.flatMap PathPart.source ≠ '$' :: '\\' :: t) :
    ∀ c t, (ps.map masked).flatMap PathPart.source = c :: t → isWordA c = false := by
  induction ps with
  | nil => intro c t e; simp at e
  | cons p ps ih =>
    intro c t e
    have hno : ∀ c, ¬ WordChar c → isWordA c = false := fun c h => by
      rw [Bool.eq_false_iff, ne_eq, isWordA_iff]; exact h
    cases p with
    | text s =>
      cases s with
      | nil => exact ih h1 h2 c t e
      | cons d s =>
        simp only [List.flatMap_cons, List.map_cons, masked, PathPart.source, List.cons_append, List.cons.injEq] at e
        rw [← e.1]
        exact hno d (h1 d _ rfl)
    | share => exact absurd rfl (h2 _)
    | var n =>
      simp only [List.flatMap_cons, List.map_cons, masked, PathPart.source, List.cons_append, List.cons.injEq] at e
      rw [← e.1]; decide
    | braced n =>
      have : "${".toList = ['$', '{'] := by decide
      simp only [List.flatMap_cons, List.map_cons, masked, PathPart.source, this, List.cons_append, List.cons.injEq] at e
      rw [← e.1]; decide
    | dollar =>
      have : "$".toList = ['$'] := by decide
      simp only [List.flatMap_cons, List.map_cons, masked, PathPart.source, this, List.cons_append, List.cons.injEq] at e
      rw [← e.1]; decide

/-- Where no share begins, the first character is that of the source. -/
theorem first_masked {ps : List PathPart} (h2 : ∀ t, ps.flatMap PathPart.source ≠ '$' :: '\\' :: t) :
    ∀ c t, (ps.map masked).flatMap PathPart.source = c :: t → ∃ t', ps.flatMap PathPart.source = c :: t' := by
  induction ps with
  | nil => intro c t e; simp at e
  | cons p ps ih =>
    intro c t e
    cases p with
    | text s =>
      cases s with
      | nil => exact ih h2 c t e
      | cons d s =>
        simp only [List.flatMap_cons, List.map_cons, masked, PathPart.source, List.cons_append, List.cons.injEq] at e
        exact ⟨_, by rw [← e.1]; rfl⟩
    | share => exact absurd rfl (h2 _)
    | var n =>
      simp only [List.flatMap_cons, List.map_cons, masked, PathPart.source, List.cons_append, List.cons.injEq] at e
      exact ⟨_, by rw [← e.1]; rfl⟩
    | braced n =>
      have : "${".toList = ['$', '{'] := by decide
      simp only [List.flatMap_cons, List.map_cons, masked, PathPart.source, this, List.cons_append, List.cons.injEq] at e
      exact ⟨_, by rw [← e.1]; rfl⟩
    | dollar =>
      have : "$".toList = ['$'] := by decide
      simp only [List.flatMap_cons, List.map_cons, masked, PathPart.source, this, List.cons_append, List.cons.injEq] at e
      exact ⟨_, by rw [← e.1]; rfl⟩

theorem mem_masked {x : Char} {ps : List PathPart} (h : x ∈ (ps.map masked).flatMap PathPart.source) :
    x ∈ ps.flatMap PathPart.source ∨ x ∈ uncMask := by
  induction ps with
  | nil => simp at h
  | cons p ps ih =>
    simp only [List.map_cons, List.flatMap_cons, List.mem_append] at h ⊢
    rcases h with h | h
    · cases p with
      | share => exact .inr h
      | text s => exact .inl (.inl h)
      | var n => exact .inl (.inl h)
      | braced n => exact .inl (.inl h)
      | dollar => exact .inl (.inl h)
    · exact (ih h).elim (fun h => .inl (.inr h)) .inr

theorem varRef_none {s : Str} (h : ∀ c t, s = c :: t → isWordA c = false ∧ (c = '{' → '}' ∉ t)) : varRef s = none := by
  unfold varRef
  split
  · next t =>
    rw [cut_none ((h _ _ rfl).2 rfl)]
  · have : s.takeWhile isWordA = [] := by
      cases s with
      | nil => rfl
      | cons c t => rw [List.takeWhile_cons_of_neg]; rw [(h c t rfl).1]; decide
    simp only [this, if_true]

theorem expand_source (env : Str → Option Str) {ps : List PathPart} (h : WellWritten ps) (hs : SharesApart ps) :
    ∀ n, ((ps.map masked).flatMap PathPart.source).length ≤ n →
      expandGo env n ((ps.map masked).flatMap PathPart.source) = (ps.map masked).flatMap (PathPart.value env) := by
  induction ps with
  | nil => intro n _; cases n <;> rfl
  | cons p ps ih =>
    intro n hn
    cases p with
    | text s =>
      simp only [WellWritten] at h
      simp only [List.flatMap_cons, List.map_cons, masked, PathPart.source, PathPart.value, List.length_append] at hn ⊢
      rw [expand_text env h.1 _ n (by omega), ih h.2 hs _ (by omega)]
    | share =>
      simp only [WellWritten] at h
      simp only [List.flatMap_cons, List.map_cons, masked, PathPart.source, PathPart.value, List.length_append] at hn ⊢
      rw [expand_text env (by decide) _ n (by omega), ih h hs _ (by omega)]
    | var x =>
      simp only [WellWritten] at h
      simp only [SharesApart] at hs
      obtain ⟨h1, h2, h3, h4⟩ := h
      simp only [List.flatMap_cons, List.map_cons, masked, PathPart.source, PathPart.value, List.length_append,
        List.length_cons] at hn ⊢
      cases n with
      | zero => omega
      | succ n =>
        rw [List.cons_append, expandGo, if_pos rfl, varRef_word h1 h2 (head_masked h3 hs.1)]
        simp only
        rw [ih h4 hs.2 _ (by omega)]
    | braced x =>
      simp only [WellWritten] at h
      obtain ⟨h1, h2, h3⟩ := h
      have e : ∀ t, "${".toList ++ x ++ "}".toList ++ t = '$' :: '{' :: (x ++ '}' :: t) := by intro t; simp
      simp only [List.flatMap_cons, List.map_cons, masked, PathPart.source, PathPart.value] at hn ⊢
      rw [e] at hn ⊢
      simp only [List.length_append, List.length_cons] at hn
      cases n with
      | zero => omega
      | succ n =>
        rw [expandGo, if_pos rfl, varRef_braced h1]
        simp only
        rw [ih h3 hs _ (by omega)]
        have : '$' :: '{' :: (x ++ ['}']) = "${".toList ++ x ++ "}".toList := by simp
        rw [this]
    | dollar =>
      simp only [WellWritten] at h
      simp only [SharesApart] at hs
      have e : "$".toList = ['$'] := by decide
      simp only [List.flatMap_cons, List.map_cons, masked, PathPart.source, PathPart.value, e, List.length_cons,
        List.cons_append, List.nil_append] at hn ⊢
      cases n with
      | zero => omega
      | succ n =>
        rw [expandGo, if_pos rfl, varRef_none]
        · simp only
          rw [ih h.2 hs.2 _ (by omega)]
        · intro c t ec
          obtain ⟨t', et⟩ := first_masked hs.1 c t ec
          obtain ⟨h1, h2, h3⟩ := h.1 c t' et
          refine ⟨by rw [Bool.eq_false_iff, ne_eq, isWordA_iff]; exact h1, ?_⟩
          rintro rfl hm
          have := mem_masked (x := '}') (ps := ps) (by rw [ec]; exact List.mem_cons_of_mem _ hm)
          rcases this with hh | hh
          · rw [et] at hh
            rcases List.mem_cons.1 hh with e | e
            · exact absurd e (by decide)
            · exact h3 rfl e
          · exact absurd hh (by decide)

/-! ### Unmasking -/

/-- A text in which some places are shares. -/
def render (share : Str) (cs : List (Option Char)) : Str :=
  cs.flatMap (fun | none => share | some c => [c])

theorem replace_skip (old new : Str) (a t : Str) : replaceFrom old new a.length (a ++ t) = replaceFrom old new 0 t := by
  induction a with
  | nil => rfl
  | cons c a ih => simpa [replaceFrom] using ih

/-- A text that has nothing in common with the mask is found only where it stands. -/
theorem prefix_render {cs : List (Option Char)} : ∀ {w : Str}, w.length ≤ uncMask.length →
    (∀ u v, w = u ++ v → v ≠ [] → ¬ v <+: uncMask) → w <+: render uncMask cs → w <+: render ['$', '\\'] cs := by
  induction cs with
  | nil =>
    intro w _ _ h
    simpa [render] using h
  | cons c cs ih =>
    intro w hl hn h
    cases w with
    | nil => exact ⟨_, rfl⟩
    | cons x w =>
      cases c with
      | none =>
        exfalso
        apply hn [] (x :: w) rfl (by simp)
        obtain ⟨t, ht⟩ := h
        simp only [render, List.flatMap_cons] at ht
        exact List.prefix_of_prefix_length_le ⟨t, ht⟩ ⟨_, rfl⟩ hl
      | some c =>
        simp only [render, List.flatMap_cons, List.cons_append, List.nil_append, List.cons_prefix_cons] at h ⊢
        refine ⟨h.1, ih (by simp at hl; omega) ?_ h.2⟩
        intro u v e hv
        exact hn (x :: u) v (by rw [e]; rfl) hv

theorem not_compat : ∀ u v, "UNC_PATH_HERE".toList = u ++ v → v ≠ [] → ¬ v <+: uncMask := by
  have key : ∀ k, k < 13 → ¬ ("UNC_PATH_HERE".toList.drop k) <+: uncMask := by decide
  intro u v e hv
  have h1 : v = "UNC_PATH_HERE".toList.drop u.length := by rw [e]; simp
  have h2 : u.length + v.length = 13 := by
    have := congrArg List.length e
    simpa using this.symm
  rw [h1]
  apply key
  have : 0 < v.length := List.length_pos_iff.2 hv
  omega

theorem unmask_render {cs : List (Option Char)} (h : ¬ "_UNC_PATH_HERE".toList <:+: render ['$', '\\'] cs) :
    replaceFrom uncMask ['$', '\\'] 0 (render uncMask cs) = render ['$', '\\'] cs := by
  induction cs with
  | nil => rfl
  | cons c cs ih =>
    cases c with
    | none =>
      have e2 : render ['$', '\\'] (none :: cs) = '$' :: '\\' :: render ['$', '\\'] cs := rfl
      have h' : ¬ "_UNC_PATH_HERE".toList <:+: render ['$', '\\'] cs := fun hi =>
        h (by rw [e2]; exact List.infix_cons (List.infix_cons hi))
      have e1 : render uncMask (none :: cs) = '_' :: ("UNC_PATH_HERE_".toList ++ render uncMask cs) := rfl
      rw [e1, e2, replaceFrom, if_pos]
      · have : uncMask.length - 1 = ("UNC_PATH_HERE_".toList).length := by decide
        rw [this, replace_skip, ih h']
        rfl
      · rw [startsWith, List.isPrefixOf_iff_prefix]
        exact ⟨render uncMask cs, rfl⟩
    | some c =>
      have e1 : ∀ sh, render sh (some c :: cs) = c :: render sh cs := fun _ => rfl
      have h' : ¬ "_UNC_PATH_HERE".toList <:+: render ['$', '\\'] cs := fun hi =>
        h (by rw [e1]; exact List.infix_cons hi)
      rw [e1, e1, replaceFrom, if_neg, ih h']
      rw [startsWith, List.isPrefixOf_iff_prefix]
      generalize hm : render uncMask cs = m
      intro hp
      have e2 : uncMask = '_' :: ("UNC_PATH_HERE".toList ++ ['_']) := by decide
      rw [e2, List.cons_prefix_cons] at hp
      have h3 : "UNC_PATH_HERE".toList <+: render uncMask cs := by
        obtain ⟨t, ht⟩ := hp.2
        exact ⟨['_'] ++ t, by rw [hm, ← ht, List.append_assoc]⟩
      have h4 := prefix_render (by decide) not_compat h3
      obtain ⟨t, ht⟩ := h4
      apply h
      refine ⟨[], t, ?_⟩
      rw [e1, ← ht, ← hp.1]
      rfl

/-- The places of parts. -/
def places (env : Str → Option Str) : PathPart → List (Option Char)
  | .share => [none]
  | p => (p.value env).map some

theorem render_map (sh s : Str) : render sh (s.map some) = s := by
  induction s with
  | nil => rfl
  | cons c s ih =>
    have : render sh (List.map some (c :: s)) = c :: render sh (s.map some) := by simp [render]
    rw [this, ih]

theorem render_append (sh : Str) (a b : List (Option Char)) : render sh (a ++ b) = render sh a ++ render sh b := by
  simp [render]

theorem value_masked (env : Str → Option Str) (ps : List PathPart) :
    (ps.map masked).flatMap (PathPart.value env) = render uncMask (ps.flatMap (places env)) ∧
    ps.flatMap (PathPart.value env) = render ['$', '\\'] (ps.flatMap (places env)) := by
  induction ps with
  | nil => exact ⟨rfl, rfl⟩
  | cons p ps ih =>
    simp only [List.map_cons, List.flatMap_cons, render_append, ih.1, ih.2]
    cases p with
    | share => simp [masked, places, PathPart.value, render]
    | text s => simp [masked, places, PathPart.value, render_map]
    | var n => simp only [masked, places, render_map, and_self]
    | braced n => simp only [masked, places, render_map, and_self]
    | dollar => simp only [masked, places, render_map, and_self]

/-- **C113** `convpath` replaces the variables that are set by their values and leaves all the rest of a path as it is,
also the names of hidden shares, `$\`; then the path is normalised, or made absolute. What is missing: shares directly
after variables, and texts with `_UNC_PATH_HERE` in them, see below. -/
theorem C113_variables_partial (user : Str → Str) (env : Str → Option Str) (cwd p : Str) (absPath expUser : Bool)
    (ps : List PathPart) (hp : (if expUser then user p else p) = ps.flatMap PathPart.source) (h : WellWritten ps)
    (hs : SharesApart ps) (hu : ¬ "_UNC_PATH_HERE".toList <:+: ps.flatMap (PathPart.value env)) :
    convpath user env cwd p absPath expUser true =
      if absPath then abspath cwd (ps.flatMap (PathPart.value env)) else normpath (ps.flatMap (PathPart.value env)) := by
  have hv := value_masked env ps
  unfold convpath
  simp only [hp, if_true]
  rw [mask_source h]
  unfold expandvars
  rw [expand_source env h hs _ (Nat.le_refl _), hv.1, unmask_render (hv.2 ▸ hu), ← hv.2]

/-- **C113** Without flags a path is only normalised. -/
theorem C113_plain (user : Str → Str) (env : Str → Option Str) (cwd p : Str) :
    convpath user env cwd p false false false = normpath p ∧ convpath user env cwd p true false false = abspath cwd p :=
  ⟨rfl, rfl⟩

/-- **C113** fails where a share follows a variable, which is then not found; and for paths with the text that stands
for shares meanwhile, or a part of it before a share. -/
theorem C113_refuted :
    let env : Str → Option Str := fun n => if n = "A".toList then some "x".toList else none
    let conv (p : String) := convpath id env "/".toList p.toList false false true
    conv "$A/b" = "x/b".toList ∧ conv "$A$\\b" = "$A$\\b".toList ∧
    conv "d_UNC_PATH_HERE_b" = "d$\\b".toList ∧ conv "d_UNC_PATH_HERE$\\b" = "d$\\UNC_PATH_HERE_b".toList := by
  decide +kernel

/-- A path with all kinds of parts. -/
example :
    let ps : List PathPart := [.text "\\\\srv\\c".toList, .share, .braced "A".toList, .text "/".toList, .var "B".toList,
      .text "/../".toList, .var "A".toList, .text "/".toList, .dollar, .text "{b/".toList, .dollar]
    let env : Str → Option Str := fun n => if n = "A".toList then some "x".toList else none
    WellWritten ps ∧ SharesApart ps ∧ ¬ "_UNC_PATH_HERE".toList <:+: ps.flatMap (PathPart.value env) ∧
    ps.flatMap PathPart.source = "\\\\srv\\c$\\${A}/$B/../$A/${b/$".toList ∧
    convpath id env "/".toList "\\\\srv\\c$\\${A}/$B/../$A/${b/$".toList false false true = "\\\\srv\\c$\\x/x/${b/$".toList := by
  intro ps env
  refine ⟨?_, ?_, ?_, by decide +kernel, by decide +kernel⟩
  · simp only [ps, WellWritten]
    refine ⟨by decide, by decide, by decide, by decide, by decide, ?_, ?_, by decide, by decide, ?_, ?_, by decide, ?_, by decide, ?_, trivial⟩
    · intro c hc
      have : c = 'B' := by simpa using hc
      subst this
      exact (isWordA_iff _).1 (by decide)
    · intro c t e hw
      have : c = '/' := by
        simp [PathPart.source] at e
        exact e.1.symm
      subst this
      exact wordChar_not hw (by decide) rfl
    · intro c hc
      have : c = 'A' := by simpa using hc
      subst this
      exact (isWordA_iff _).1 (by decide)
    · intro c t e hw
      have : c = '/' := by
        simp [PathPart.source] at e
        exact e.1.symm
      subst this
      exact wordChar_not hw (by decide) rfl
    · intro c t e
      have e' : '{' :: "b/$".toList = c :: t := e
      obtain ⟨rfl, rfl⟩ := List.cons.inj e'
      exact ⟨fun hw => wordChar_not hw (by decide) rfl, by decide, fun _ => by decide⟩
    · intro c t e
      simp at e
  · simp only [ps, SharesApart]
    refine ⟨?_, ?_, ?_, ?_, trivial⟩ <;>
    · intro t e
      simp [PathPart.source] at e
  · decide +kernel

end Props
