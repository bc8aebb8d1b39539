import Verif.Lemmas.PstepTags
import Verif.Props.MapPath
import Verif.Tests.ToyRegex
/-
C19, C24: the paths that a tree of steps reports.
-/
set_option linter.unusedSimpArgs false
namespace Props
open Py Model Spec Lemmas

private theorem move_rel {xs : List Str} (h : ∀ x ∈ xs, Ordinary x) : ∀ (u : Nat) (ns : List Str),
    xs.foldl Loc.move (.rel u ns) = .rel u (ns ++ xs) := by
  induction xs with
  | nil => intro u ns; simp
  | cons x xs ih =>
    intro u ns
    obtain ⟨h0, h1, h2⟩ := h x (by simp)
    have hm : (Loc.rel u ns).move x = .rel u (ns ++ [x]) := by
      unfold Loc.move; rw [if_neg h0, if_neg h1, if_neg h2]
    rw [List.foldl_cons, hm, ih (fun y hy => h y (by simp [hy]))]; simp

private theorem move_abs {xs : List Str} (h : ∀ x ∈ xs, Ordinary x) : ∀ (ns : List Str),
    xs.foldl Loc.move (.abs ns) = .abs (ns ++ xs) := by
  induction xs with
  | nil => intro ns; simp
  | cons x xs ih =>
    intro ns
    obtain ⟨h0, h1, h2⟩ := h x (by simp)
    rw [List.foldl_cons, Loc.move, if_neg h0, if_neg h1, if_neg h2]
    rw [ih (fun y hy => h y (by simp [hy]))]; simp

/-- Ordinary names, possibly after the root, are joined with slashes. -/
theorem join_ordinary {n : Str} {xs : List Str} (hn : n = "".toList ∨ Ordinary n) (h : ∀ x ∈ xs, Ordinary x) :
    ((n :: xs).foldl Loc.move (.rel 0 [])).text = pathText (n :: xs) := by
  rcases hn with rfl | hn
  · rw [List.foldl_cons]
    have : (Loc.rel 0 []).move "".toList = .abs [] := rfl
    rw [this, move_abs h]; rfl
  · rw [move_rel (xs := n :: xs) (by intro x hx; rcases List.mem_cons.1 hx with e | hx; exact e ▸ hn; exact h x hx)]
    rfl

/-- One step only. -/
theorem tidy_root {D : Nat} {E : RegexLib} {h : List PmodObj} {o : StepObj} (hc : o.csteps = none)
    {t : Option Pmod} (hd : DenOpt h o.pmod t) (hw : ∀ x, t = some x → Within D x) : Tidy D E ⟨h, [o], []⟩ := by
  have hone : ∀ (i : Nat) (oi : StepObj), [o][i]? = some oi → i = 0 ∧ oi = o := by
    intro i oi hi
    have := (List.getElem?_eq_some_iff.1 hi).1
    simp only [List.length_cons, List.length_nil] at this
    have : i = 0 := by omega
    subst this
    simp at hi
    exact ⟨rfl, hi.symm⟩
  have hnoedge : ∀ s k c, ¬ Edge ⟨h, [o], []⟩ s k c := by
    rintro s k c ⟨oi, hi, hg⟩
    obtain ⟨_, rfl⟩ := hone s oi hi
    simp [PsState.kids, hc] at hg
  constructor
  · intro i j oi oj d hi hj _ _; rw [(hone i oi hi).1, (hone j oj hj).1]
  · intro i oi d hi hcs; rw [(hone i oi hi).2, hc] at hcs; cases hcs
  · intro i oi hi
    rw [(hone i oi hi).2]
    simp only [PsState.kids, hc]
    exact List.nodup_nil
  · intro s k c he; exact absurd he (hnoedge s k c)
  · intro s k s' k' c he; exact absurd he (hnoedge s k c)
  · intro i oi hi; rw [(hone i oi hi).2]; exact ⟨t, hd, hw⟩
  · intro s k c os he; exact absurd he (hnoedge s k c)

theorem root_fresh {h : List PmodObj} {o : StepObj} (hc : o.csteps = none) (ks : List Str)
    (hw : Walkable ⟨h, [o], []⟩ 0 ks) : ks = [] := by
  obtain ⟨rs, hw⟩ := hw
  cases hw with
  | nil => rfl
  | cons _ k c ks rs he _ =>
    obtain ⟨oi, hi, hg⟩ := he
    simp at hi
    subst hi
    simp [PsState.kids, hc] at hg

theorem namesFor_none {E : RegexLib} {p : List Str} {as : List (Option Str)} {u : Option Pmod}
    (h : Along E none p as u) : namesFor p as = p := by
  generalize ht : (none : Option Pmod) = t at h
  induction h with
  | nil t => rfl
  | cons t t' k al ks as u hd _ ih =>
    subst ht
    cases hd
    simp only [namesFor, nameFor]
    rw [ih rfl]

theorem along_none (E : RegexLib) (p : List Str) : ∃ as u, Along E none p as u := by
  induction p with
  | nil => exact ⟨[], none, .nil none⟩
  | cons k p ih =>
    obtain ⟨as, u, h⟩ := ih
    exact ⟨none :: as, u, .cons none none k none p as u rfl h⟩

/-- C19. Make a step without mappings, and read any chains of attributes from it, in any order, any of
them again and again (the names being those of steps and ordinary in paths, and the recursion limit
being above the lengths of the chains). Nothing is raised, and the paths reported are exactly
the maximal chains read, as texts, sorted and without repetition. -/
theorem C19_paths_are_maximal (F : Nat) (E : RegexLib) (h : List PmodObj) (root : Str) (paths : List (List Str))
    (hroot : root = "".toList ∨ Ordinary root)
    (hnames : ∀ p ∈ paths, ∀ k ∈ p, StepName k ∧ Ordinary k)
    (hF : ∀ p ∈ [] :: paths, p.length < F) :
    ∃ σ0 r σ l, newStep F E ⟨h, [], []⟩ root .none none [] = (σ0, .ok r) ∧
      readPaths F E σ0 r paths = .ok σ ∧ pstepPaths F σ r none = .ok l ∧
      StrictlySorted l ∧ ∀ x, x ∈ l ↔ ∃ p, Maximal paths p ∧ x = pathText (root :: p) := by
  have hn : ∀ p ∈ paths, ReadNames p := fun p hp k hk => ⟨(hnames p hp k hk).1, (hnames p hp k hk).2.1⟩
  let o : StepObj := ⟨root, root, none, none, canRelocate, []⟩
  have hT : Tidy 0 E ⟨h, [o], []⟩ := tidy_root (D := 0) rfl (t := none) trivial (fun x hx => by cases hx)
  obtain ⟨r1, _⟩ := readPaths_tidy (F := F) (Nat.zero_le F) (r := 0) paths hT hn (o := o) rfl (t := none) trivial
  obtain ⟨σ, hσ⟩ := r1 (fun p _ => along_none E p)
  obtain ⟨l, h1, h2, h3, _⟩ := paths_read (F := F) (Nat.zero_le F) (r := 0) hT hn (o := o) rfl (t := none) trivial
    (root_fresh rfl) hF hσ
  refine ⟨⟨h, [o], []⟩, 0, σ, l, rfl, hσ, h1, h2, fun x => ?_⟩
  rw [h3 x]
  have key : ∀ p, Maximal paths p → joinPaths (o.name :: p) = pathText (root :: p) := by
    intro p hp
    rw [joinPaths_eq_text]
    refine join_ordinary hroot (fun x hx => ?_)
    rcases List.mem_cons.1 hp.1 with rfl | hp
    · cases hx
    · exact (hnames p hp x hx).2
  constructor
  · rintro ⟨p, as, u, hmax, hal, rfl⟩
    exact ⟨p, hmax, by rw [namesFor_none hal, key p hmax]⟩
  · rintro ⟨p, hmax, rfl⟩
    obtain ⟨as, u, hal⟩ := along_none E p
    exact ⟨p, as, u, hmax, hal, by rw [namesFor_none hal, key p hmax]⟩

/-- Some chains, among them repeated ones and parts of others. -/
example : (match readPaths 9 Tests.toy (newStep 9 Tests.toy ⟨[], [], []⟩ [] .none none []).1 0
      [["b".toList, "c".toList], ["a".toList], ["b".toList], ["b".toList, "d".toList, "e".toList], ["a".toList]] with
    | .ok σ => (match pstepPaths 9 σ 0 none with
      | .ok l => l == ["/a".toList, "/b/c".toList, "/b/d/e".toList]
      | .error _ => false)
    | .error _ => false) = true := by decide +kernel

/-- C19 needs the names to be ordinary in paths: `getattr(p, "..")` is a step, but its path is not
the chain read. -/
theorem C19_dots_refuted :
    (match readPaths 9 Tests.toy (newStep 9 Tests.toy ⟨[], [], []⟩ [] .none none []).1 0
      [["a".toList, "..".toList, "b".toList]] with
    | .ok σ => (match pstepPaths 9 σ 0 none with
      | .ok l => l == ["/b".toList]
      | .error _ => false)
    | .error _ => false) = true := by decide +kernel

/-! ### C24 -/

private theorem ordinary_pathText {n : Str} {ns : List Str} (h : ∀ x ∈ n :: ns, Plain x ∧ Ordinary x) :
    Ordinary (pathText (n :: ns)) := by
  cases ns with
  | nil => simpa [pathText, join] using (h n (by simp)).2
  | cons m ns =>
    have hn := (h n (by simp)).2.1
    have hs : '/' ∈ pathText (n :: m :: ns) := by simp [pathText, join]
    refine ⟨fun e => ?_, fun e => ?_, fun e => ?_⟩ <;> (rw [e] at hs; revert hs; decide)

private theorem join_append (xs : List Str) : ∀ (ys : List Str), xs ≠ [] → ys ≠ [] →
    join ['/'] (xs ++ ys) = join ['/'] xs ++ '/' :: join ['/'] ys := by
  induction xs with
  | nil => intro ys h; exact absurd rfl h
  | cons x xs ih =>
    intro ys _ hy
    cases xs with
    | nil =>
      cases ys with
      | nil => exact absurd rfl hy
      | cons y ys => simp [join]
    | cons x' xs =>
      have := ih ys (by simp) hy
      simp only [List.cons_append] at this
      simp only [List.cons_append, join, this, List.append_assoc]

/-- Joining texts that are themselves joined. -/
private theorem join_join (xss : List (List Str)) (h : ∀ xs ∈ xss, xs ≠ []) :
    join ['/'] (xss.map (join ['/'])) = join ['/'] xss.flatten := by
  induction xss with
  | nil => rfl
  | cons xs xss ih =>
    have ih' := ih (fun ys hys => h ys (by simp [hys]))
    cases xss with
    | nil => simp [join]
    | cons ys yss =>
      have hy : (ys :: yss).flatten ≠ [] := by
        have := h ys (by simp)
        simp only [List.flatten_cons]
        intro e
        exact this (List.append_eq_nil_iff.1 e).1
      rw [List.flatten_cons, join_append _ _ (h xs (by simp)) hy, ← ih']
      simp [join]

/-- What a step contributes, when its alias is plain and relative. -/
private theorem contribution_relative {k : Str} {a : Option Str} (hk : Plain k ∧ Ordinary k)
    (ha : ∀ x, a = some x → RelativeAlias x) :
    contribution k a ≠ [] ∧ (∀ x ∈ contribution k a, Ordinary x) ∧ nameFor k a = join ['/'] (contribution k a) ∧
      Ordinary (nameFor k a) ∧ (∀ x, a = some x → PlainAlias x) := by
  cases a with
  | none =>
    refine ⟨by simp [contribution], fun x hx => ?_, by simp [contribution, nameFor, join], hk.2, fun x hx => by cases hx⟩
    simp [contribution] at hx; subst hx; exact hk.2
  | some a =>
    obtain ⟨n, ns, rfl, hd, hx⟩ := ha a rfl
    have hplain : ∀ x ∈ n :: ns, Plain x := fun x h => (hx x h).1
    have ho := ordinary_pathText hx
    have hsplit := splitOn_pathText (ps := n :: ns) (by simp) hplain
    have hhead : (pathText (n :: ns)).head? ≠ some '.' := by
      have hn0 := (hx n (by simp)).2.1
      cases n with
      | nil => exact absurd rfl hn0
      | cons c n =>
        cases ns with
        | nil => simpa [pathText, join] using hd
        | cons m ns => simpa [pathText, join] using hd
    have hc : contribution k (some (pathText (n :: ns))) = n :: ns := by
      simp only [contribution, if_neg hhead, hsplit]
    have ht := tilde_not_mem_pathText hplain
    have hname : nameFor k (some (pathText (n :: ns))) = pathText (n :: ns) := by
      simp only [nameFor, if_neg ho.1, unescapePart_plain ht]
    rw [hc, hname]
    refine ⟨by simp, fun x h => (hx x h).2, rfl, ho, fun x hx' => ?_⟩
    injection hx' with hx'; subst hx'
    refine ⟨ht, .inr (fun e => ?_)⟩
    rcases List.eq_nil_or_concat (n :: ns) with h0 | ⟨qs, q, h0⟩
    · cases h0
    · rw [List.concat_eq_append] at h0
      have hq : q ∈ n :: ns := by rw [h0]; simp
      have hq0 := hx q hq
      rw [h0] at e
      unfold pathText at e
      have : ∀ y : Str, (y ++ q).getLast? = q.getLast? := by
        intro y
        rw [List.getLast?_append]
        cases hl : q.getLast? with
        | none => rw [List.getLast?_eq_none_iff] at hl; exact absurd hl hq0.2.1
        | some z => rfl
      have hlast : (join ['/'] (qs ++ [q])).getLast? = q.getLast? := by
        cases qs with
        | nil => simp [join]
        | cons q0 qs =>
          rw [join_snoc _ _ (by simp)]
          have := this (join ['/'] (q0 :: qs) ++ ['/'])
          simpa using this
      rw [show "/".toList = ['/'] from rfl, hlast] at e
      exact hq0.1.1 (List.mem_of_getLast? e)

/-- The texts along a path, and what they contribute. -/
private theorem along_contribution {E : RegexLib} {t u : Option Pmod} {p : List Str} {as : List (Option Str)}
    (h : Along E t p as u) (hp : ∀ k ∈ p, Plain k ∧ Ordinary k) (ha : ∀ a, some a ∈ as → RelativeAlias a) :
    ∃ xss : List (List Str), (∀ xs ∈ xss, xs ≠ [] ∧ ∀ x ∈ xs, Ordinary x) ∧ namesFor p as = xss.map (join ['/']) ∧
      (∀ x ∈ namesFor p as, Ordinary x) ∧
      (p.zip as).flatMap (fun sa => contribution sa.1 sa.2) = xss.flatten ∧ (∀ a, some a ∈ as → PlainAlias a) := by
  induction h with
  | nil t => exact ⟨[], by simp, rfl, by simp [namesFor], rfl, by simp⟩
  | cons t t' k al ks as u hd _ ih =>
    obtain ⟨xss, h1, h2, h3, h4, h5⟩ := ih (fun k hk => hp k (by simp [hk])) (fun a h => ha a (by simp [h]))
    obtain ⟨c1, c2, c3, c4, c5⟩ := contribution_relative (a := al) (hp k (by simp)) (fun x hx => ha x (by simp [hx]))
    refine ⟨contribution k al :: xss, ?_, ?_, ?_, ?_, ?_⟩
    · intro xs hxs
      rcases List.mem_cons.1 hxs with rfl | hxs
      · exact ⟨c1, c2⟩
      · exact h1 xs hxs
    · rw [namesFor, h2, c3]; rfl
    · intro x hx
      rw [namesFor] at hx
      rcases List.mem_cons.1 hx with rfl | hx
      · exact c4
      · exact h3 x hx
    · rw [List.zip_cons_cons, List.flatMap_cons, h4, List.flatten_cons]
    · intro a hmem
      rcases List.mem_cons.1 hmem with e | hmem
      · exact c5 a e.symm
      · exact h5 a hmem

/-- The texts along a path are, joined, the mapped path. -/
theorem mapped_text_at {E : RegexLib} {pm : Pmod} {rt : Str} (hrt : rt = "".toList ∨ Plain rt ∧ Ordinary rt) {t u : Option Pmod} {a : Option Str} {p : List Str} {as : List (Option Str)}
    (hpm : pm.alias = none) (hdesc : pm.descend E rt = .ok (t, a)) (hal : Along E t p as u)
    (q1 : ∀ x, a = some x → RootAlias x) (q2 : ∀ x, some x ∈ as → RelativeAlias x)
    (hpn : ∀ k ∈ p, Plain k ∧ Ordinary k) :
    pm.mapPath E (pathText (rt :: p)) = .ok (joinPaths (nameFor rt a :: namesFor p as)) := by
  have hal2 : AliasesAlong E (some pm) (rt :: p) (a :: as) :=
    along_iff.2 ⟨u, .cons (some pm) t rt a p as u hdesc hal⟩
  obtain ⟨xss, c1, c2, c3, c4, c5⟩ := along_contribution hal hpn q2
  have hroot : ∃ n0 xs0, contribution rt a = n0 :: xs0 ∧ (n0 = "".toList ∨ Ordinary n0) ∧ (∀ x ∈ xs0, Ordinary x) ∧
      nameFor rt a = join ['/'] (n0 :: xs0) ∧ (∀ x, a = some x → PlainAlias x) ∧
      (nameFor rt a = "".toList ∨ Ordinary (nameFor rt a)) := by
    cases a with
    | none =>
      have hrt' : rt = "".toList ∨ Ordinary rt := hrt.imp id And.right
      exact ⟨rt, [], rfl, hrt', by simp, rfl, (fun x hx => by cases hx), hrt'⟩
    | some a =>
      rcases q1 a rfl with hrel | ⟨n, ns, rfl, hx⟩
      · obtain ⟨_, c2, c3, c4, c5⟩ := contribution_relative (k := "x".toList) (a := some a)
          ⟨by unfold Plain; decide, by unfold Ordinary; decide⟩ (fun x hx => by injection hx with hx; subst hx; exact hrel)
        obtain ⟨n, ns, rfl, hd, hx⟩ := hrel
        have hhead : (pathText (n :: ns)).head? ≠ some '.' := by
          have hn0 := (hx n (by simp)).2.1
          cases n with
          | nil => exact absurd rfl hn0
          | cons c n => cases ns <;> simpa [pathText, join] using hd
        have ho := ordinary_pathText hx
        have hsplit := splitOn_pathText (ps := n :: ns) (by simp) (fun x h => (hx x h).1)
        simp only [contribution, if_neg hhead, hsplit, nameFor, if_neg ho.1] at c2 c3 c4 ⊢
        exact ⟨n, ns, rfl, .inr (c2 n (by simp)), fun x hx => c2 x (by simp [hx]), c3, c5, .inr c4⟩
      · have hx0 : ∀ x ∈ "".toList :: n :: ns, Plain x := by
          intro x hm
          rcases List.mem_cons.1 hm with rfl | hm
          · exact ⟨by decide, by decide⟩
          · exact (hx x hm).1
        have hsplit := splitOn_pathText (ps := "".toList :: n :: ns) (by simp) hx0
        have ht := tilde_not_mem_pathText hx0
        have hhd : (pathText ("".toList :: n :: ns)) = '/' :: pathText (n :: ns) := by simp [pathText, join]
        have hne : pathText (n :: ns) ≠ [] := (ordinary_pathText hx).1
        have hhead : (pathText ("".toList :: n :: ns)).head? ≠ some '.' := by rw [hhd]; simp
        have hord : Ordinary (pathText ("".toList :: n :: ns)) := by
          rw [hhd]
          refine ⟨by simp, ?_, ?_⟩ <;> (intro e; injection e with e; revert e; decide)
        simp only [contribution, if_neg hhead, hsplit, nameFor, if_neg hord.1, unescapePart_plain ht]
        refine ⟨"".toList, n :: ns, rfl, .inl rfl, fun x h => (hx x h).2, rfl, fun x hx' => ?_, .inr hord⟩
        injection hx' with hx'; subst hx'
        refine ⟨ht, .inr ?_⟩
        rw [hhd]
        intro e
        rw [List.getLast?_cons] at e
        rcases List.eq_nil_or_concat (n :: ns) with h0 | ⟨qs, q, h0⟩
        · cases h0
        · rw [List.concat_eq_append] at h0
          have hq : q ∈ n :: ns := by rw [h0]; simp
          have hq0 := hx q hq
          have hlast : (pathText (n :: ns)).getLast? = q.getLast? := by
            rw [h0]
            unfold pathText
            cases qs with
            | nil => simp [join]
            | cons q0 qs =>
              rw [show "/".toList = ['/'] from rfl, join_snoc _ _ (by simp), List.getLast?_append, List.getLast?_cons]
              cases hl : q.getLast? with
              | none => rw [List.getLast?_eq_none_iff] at hl; exact absurd hl hq0.2.1
              | some z => rfl
          rw [hlast] at e
          cases hl : q.getLast? with
          | none => rw [List.getLast?_eq_none_iff] at hl; exact absurd hl hq0.2.1
          | some z =>
            rw [hl] at e
            simp at e
            subst e
            exact hq0.1.1 (List.mem_of_getLast? hl)
  obtain ⟨n0, xs0, r1, r2, r3, r4, r5, r6⟩ := hroot
  rw [C16_map_path_walks E pm (rt :: p) (a :: as) hpm (by simp)
    (by
      intro k hk
      rcases List.mem_cons.1 hk with rfl | hk
      · rcases hrt with rfl | hrt
        · exact ⟨by decide, by decide⟩
        · exact hrt.1
      · exact (hpn k hk).1)
    (by
      cases p with
      | nil =>
        rcases hrt with rfl | hrt
        · exact .inr ⟨by simp, rfl⟩
        · left
          intro e
          simp at e
          exact hrt.2.1 e
      | cons k p =>
        left
        intro e
        rw [List.getLast?_cons_cons] at e
        exact (hpn _ (List.mem_of_getLast? e)).2.1 rfl)
    hal2
    (by
      intro x hx
      rcases List.mem_cons.1 hx with e | hx
      · exact r5 x e.symm
      · exact c5 x hx)]
  rw [List.zip_cons_cons, List.flatMap_cons, c4, r1, List.cons_append, joinPaths_eq_text]
  rw [join_ordinary r2 (by
    intro x hx
    rcases List.mem_append.1 hx with hx | hx
    · exact r3 x hx
    · obtain ⟨xs, h1, h2⟩ := List.mem_flatten.1 hx
      exact (c1 xs h1).2 x h2)]
  rw [join_ordinary r6 c3, c2, r4]
  have := join_join ((n0 :: xs0) :: xss) (by
    intro xs hxs
    rcases List.mem_cons.1 hxs with rfl | hxs
    · simp
    · exact (c1 xs hxs).1)
  simp only [List.map_cons, List.flatten_cons, List.cons_append] at this
  unfold pathText
  rw [show "/".toList = ['/'] from rfl, this]

/-- The same from the root. -/
theorem mapped_text {E : RegexLib} {pm : Pmod} {t u : Option Pmod} {a : Option Str} {p : List Str} {as : List (Option Str)}
    (hpm : pm.alias = none) (hdesc : pm.descend E "".toList = .ok (t, a)) (hal : Along E t p as u)
    (q1 : ∀ x, a = some x → RootAlias x) (q2 : ∀ x, some x ∈ as → RelativeAlias x)
    (hpn : ∀ k ∈ p, Plain k ∧ Ordinary k) :
    pm.mapPath E (pathText ("".toList :: p)) = .ok (joinPaths (nameFor "".toList a :: namesFor p as)) :=
  mapped_text_at (.inl rfl) hpm hdesc hal q1 q2 hpn

/-- C24. Take mappings that stand for the hierarchy `pm` (which has no alias of its own), make a step
from them, and read any chains of attributes from it. If the names read are ordinary and plain, and
the aliases in force on them are plain relative paths (that of the root may also start from
the root), the paths the steps report are exactly the maximal chains read, as paths
from the root, mapped by the hierarchy; sorted and without repetition. -/
theorem C24_step_paths_are_mapped_paths (F : Nat) (E : RegexLib) (h : List PmodObj) (r : Nat) (pm : Pmod)
    (σ0 σ : PsState) (s : Nat) (paths : List (List Str))
    (hden : Den h r pm) (hpm : pm.alias = none) (hdepth : depth pm ≤ F)
    (hstep : newStep F E ⟨h, [], []⟩ "".toList (.pmod r) none [] = (σ0, .ok s))
    (hread : readPaths F E σ0 s paths = .ok σ)
    (hnames : ∀ p ∈ paths, ∀ k ∈ p, StepName k ∧ Ordinary k ∧ Plain k)
    (halias : ∀ p ∈ [] :: paths, ∀ a as, AliasesAlong E (some pm) ("".toList :: p) (a :: as) →
      (∀ x, a = some x → RootAlias x) ∧ ∀ x, some x ∈ as → RelativeAlias x)
    (hF : ∀ p ∈ [] :: paths, p.length < F) :
    ∃ l, pstepPaths F σ s none = .ok l ∧ StrictlySorted l ∧
      ∀ x, x ∈ l ↔ ∃ p, Maximal paths p ∧ pm.mapPath E (pathText ("".toList :: p)) = .ok x := by
  have hn : ∀ p ∈ paths, ReadNames p := fun p hp k hk => ⟨(hnames p hp k hk).1, (hnames p hp k hk).2.1.1⟩
  obtain ⟨dE, dO⟩ := descendH_den (F := F) (E := E) hden (within_depth pm) hdepth "".toList
  cases hdesc : pm.descend E "".toList with
  | error e =>
    exfalso
    have := dE e hdesc
    simp only [newStep, this] at hstep
    cases hstep
  | ok ta =>
    obtain ⟨t, a⟩ := ta
    obtain ⟨h', p', e1, e2, e3, e4⟩ := dO t a hdesc
    have hstep2 : newStep F E ⟨h, [], []⟩ "".toList (.pmod r) none [] =
        (⟨h', [⟨nameFor "".toList a, "".toList, p', none, canRelocate, []⟩], []⟩, .ok 0) := by
      simp only [newStep, e1]
      cases a with
      | none => rfl
      | some m => rfl
    rw [hstep] at hstep2
    injection hstep2 with hs1 hs2
    injection hs2 with hs2
    subst hs1; subst hs2
    obtain ⟨l, l1, l2, l3, hsome⟩ := paths_read (F := F) hdepth (r := 0)
      (tidy_root (E := E) (D := depth pm) (o := ⟨nameFor "".toList a, "".toList, p', none, canRelocate, []⟩) rfl e3 e4)
      hn rfl e3 (root_fresh rfl) hF hread
    refine ⟨l, l1, l2, fun x => ?_⟩
    rw [l3 x]
    have key : ∀ p, Maximal paths p → ∀ as u, Along E t p as u →
        pm.mapPath E (pathText ("".toList :: p)) = .ok (joinPaths (nameFor "".toList a :: namesFor p as)) := by
      intro p hp as u hal
      have hal2 : AliasesAlong E (some pm) ("".toList :: p) (a :: as) :=
        along_iff.2 ⟨u, .cons (some pm) t "".toList a p as u hdesc hal⟩
      obtain ⟨q1, q2⟩ := halias p hp.1 a as hal2
      refine mapped_text hpm hdesc hal q1 q2 (fun k hk => ?_)
      rcases List.mem_cons.1 hp.1 with rfl | hp
      · cases hk
      · exact ⟨(hnames p hp k hk).2.2, (hnames p hp k hk).2.1⟩
    constructor
    · rintro ⟨p, as, u, hmax, hal, rfl⟩
      exact ⟨p, hmax, key p hmax as u hal⟩
    · rintro ⟨p, hmax, hx⟩
      obtain ⟨as, u, hal⟩ := hsome p hmax
      rw [key p hmax as u hal] at hx
      injection hx with hx
      exact ⟨p, as, u, hmax, hal, hx.symm⟩

/-- Mappings on a heap: `/a` to `A/x`, and `/a/b` to `B`. -/
def mapsAB : List PmodObj := [⟨none, [("".toList, 1)], []⟩, ⟨none, [("a".toList, 2)], []⟩,
  ⟨some "A/x".toList, [("b".toList, 3)], []⟩, ⟨some "B".toList, [], []⟩]

/-- The hierarchy they stand for. -/
def treeAB : Pmod := .mk none [("".toList, .mk none [("a".toList,
  .mk (some "A/x".toList) [("b".toList, .mk (some "B".toList) [] [])] [])] [])] []

/-- The hypotheses of C24 are met by them. -/
example : Den mapsAB 0 treeAB ∧ treeAB.alias = none ∧ depth treeAB ≤ 9 ∧
    (∃ σ0 s σ, newStep 9 Tests.toy ⟨mapsAB, [], []⟩ "".toList (.pmod 0) none [] = (σ0, .ok s) ∧
      readPaths 9 Tests.toy σ0 s [["a".toList, "b".toList], ["c".toList]] = .ok σ ∧
      pstepPaths 9 σ s none = .ok ["/A/x/B".toList, "/c".toList]) ∧
    RelativeAlias "A/x".toList ∧ RelativeAlias "B".toList := by
  refine ⟨?_, rfl, by decide +kernel, ⟨_, _, _, rfl, rfl, ?_⟩, ?_, ?_⟩
  · exact .mk 0 ⟨none, [("".toList, 1)], []⟩ _ _ rfl (.cons _ 1 _ _ _
      (.mk 1 ⟨none, [("a".toList, 2)], []⟩ _ _ rfl (.cons _ 2 _ _ _
        (.mk 2 ⟨some "A/x".toList, [("b".toList, 3)], []⟩ _ _ rfl (.cons _ 3 _ _ _
          (.mk 3 ⟨some "B".toList, [], []⟩ _ _ rfl .nil .nil) .nil) .nil) .nil) .nil) .nil) .nil
  · rfl
  · exact ⟨"A".toList, ["x".toList], rfl, by decide, by unfold Plain Ordinary; decide⟩
  · exact ⟨"B".toList, [], rfl, by decide, by unfold Plain Ordinary; decide⟩

/-- The aliases in force there are relative. -/
example : ∀ p ∈ [[], ["a".toList, "b".toList], ["c".toList]], ∀ a as,
    AliasesAlong Tests.toy (some treeAB) ("".toList :: p) (a :: as) →
      (∀ x, a = some x → RootAlias x) ∧ ∀ x, some x ∈ as → RelativeAlias x := by
  have hA : RelativeAlias "A/x".toList := ⟨"A".toList, ["x".toList], rfl, by decide, by unfold Plain Ordinary; decide⟩
  have hB : RelativeAlias "B".toList := ⟨"B".toList, [], rfl, by decide, by unfold Plain Ordinary; decide⟩
  intro p hp a as h
  simp only [List.mem_cons, List.not_mem_nil, or_false] at hp
  rcases hp with rfl | rfl | rfl
  · cases h with
    | on _ pm' _ _ _ _ hd hr =>
      cases hd
      cases hr
      exact ⟨fun x hx => (by cases hx), fun x hx => (by cases hx)⟩
  · cases h with
    | on _ pm' _ _ _ _ hd hr =>
      cases hd
      refine ⟨fun x hx => (by cases hx), ?_⟩
      cases hr with
      | on _ pm' _ _ _ _ hd hr =>
        cases hd
        cases hr with
        | on _ pm' _ _ _ _ hd hr =>
          cases hd
          cases hr
          intro x hx
          simp only [List.mem_cons, List.not_mem_nil, or_false, Option.some.injEq] at hx
          rcases hx with rfl | rfl
          · exact hA
          · exact hB
  · cases h with
    | on _ pm' _ _ _ _ hd hr =>
      cases hd
      refine ⟨fun x hx => (by cases hx), ?_⟩
      cases hr with
      | on _ pm' _ _ _ _ hd hr =>
        cases hd
        cases hr with
        | nil => intro x hx; simp at hx

/-- The paths of steps read from mappings of one name, and the mapped path of that name. -/
def bothPaths (alias : Str) : Option (List Str × Str) :=
  let pm : Pmod := .mk none [("".toList, .mk none [("a".toList, .mk (some alias) [] [])] [])] []
  let h : List PmodObj := [⟨none, [("".toList, 1)], []⟩, ⟨none, [("a".toList, 2)], []⟩, ⟨some alias, [], []⟩]
  match readPaths 9 Tests.toy (newStep 9 Tests.toy ⟨h, [], []⟩ "".toList (.pmod 0) none []).1 0 [["a".toList]],
      pm.mapPath Tests.toy "/a".toList with
  | .ok σ, .ok y => (match pstepPaths 9 σ 0 none with
      | .ok l => some (l, y)
      | .error _ => none)
  | _, _ => none

/-- C24 holds for plain relative aliases only. For an alias with a leading dot, a rooted one, one with
dots inside, an empty one, or one with a trailing slash, the steps report another path than the one mapped. -/
theorem C24_other_aliases_refuted :
    bothPaths "./x".toList = some (["/./x".toList], "/a/x".toList) ∧
    bothPaths "/x".toList = some (["//x".toList], "/x".toList) ∧
    bothPaths "x/../y".toList = some (["/x/../y".toList], "/y".toList) ∧
    bothPaths "".toList = some (["/a".toList], "".toList) ∧
    bothPaths "x/".toList = some (["/x/".toList], "/x".toList) ∧
    bothPaths "x/y".toList = some (["/x/y".toList], "/x/y".toList) := by
  decide +kernel

/-! ### C77: the paths with a tag -/

/-- C77. Make a step without mappings, and read any chains of attributes from it, tagging the step that
each leads to with any tags (perhaps none). Nothing is raised, and the paths reported for a tag
are exactly the chains tagged with it, as texts, sorted and without repetition. -/
theorem C77_tagged_paths (F : Nat) (E : RegexLib) (h : List PmodObj) (root : Str) (ops : List (List Str × List Str))
    (tag : Str) (htag : tag ≠ "".toList)
    (hroot : root = "".toList ∨ Ordinary root)
    (hnames : ∀ op ∈ ops, ∀ k ∈ op.1, StepName k ∧ Ordinary k)
    (hF : ∀ op ∈ ([], []) :: ops, op.1.length < F) :
    ∃ σ0 r σ l, newStep F E ⟨h, [], []⟩ root .none none [] = (σ0, .ok r) ∧
      tagPaths F E σ0 r ops = .ok σ ∧ pstepPaths F σ r (some tag) = .ok l ∧
      StrictlySorted l ∧ ∀ x, x ∈ l ↔ ∃ p tags, (p, tags) ∈ ops ∧ tag ∈ tags ∧ x = pathText (root :: p) := by
  have hn : ∀ op ∈ ops, ReadNames op.1 := fun op hp k hk => ⟨(hnames op hp k hk).1, (hnames op hp k hk).2.1⟩
  let o : StepObj := ⟨root, root, none, none, canRelocate, []⟩
  have hT : Tidy 0 E ⟨h, [o], []⟩ := tidy_root (D := 0) rfl (t := none) trivial (fun x hx => by cases hx)
  have hput : TagsAre ⟨h, [o], []⟩ 0 (fun _ _ => False) := by
    intro ks rs hw
    have := root_fresh rfl ks ⟨rs, hw⟩
    subst this
    cases hw
    exact ⟨o, rfl, fun t => by simp [o]⟩
  obtain ⟨r1, _⟩ := tagPaths_tidy (F := F) (Nat.zero_le F) (r := 0) ops hT hn (o := o) rfl (t := none) trivial hput
    (fun _ _ h => h.elim)
  obtain ⟨σ, hσ⟩ := r1 (fun p _ => along_none E _)
  obtain ⟨l, h1, h2, h3, _⟩ := paths_tagged (F := F) (Nat.zero_le F) (r := 0) hT hn (o := o) rfl (t := none) trivial
    (root_fresh rfl) rfl hF hσ tag htag
  refine ⟨⟨h, [o], []⟩, 0, σ, l, rfl, hσ, h1, h2, fun x => ?_⟩
  rw [h3 x]
  have key : ∀ p tags, (p, tags) ∈ ops → joinPaths (o.name :: p) = pathText (root :: p) := by
    intro p tags hp
    rw [joinPaths_eq_text]
    exact join_ordinary hroot (fun x hx => (hnames _ hp x hx).2)
  constructor
  · rintro ⟨p, tags, as, u, g1, g2, hal, rfl⟩
    exact ⟨p, tags, g1, g2, by rw [namesFor_none hal, key p tags g1]⟩
  · rintro ⟨p, tags, g1, g2, rfl⟩
    obtain ⟨as, u, hal⟩ := along_none E p
    exact ⟨p, tags, as, u, g1, g2, hal, by rw [namesFor_none hal, key p tags g1]⟩

/-- C77, with mappings: the paths reported for a tag are the chains tagged with it, mapped by the hierarchy
(under the conditions of C24 on names and aliases). -/
theorem C77_tagged_mapped_paths (F : Nat) (E : RegexLib) (h : List PmodObj) (r : Nat) (pm : Pmod)
    (σ0 σ : PsState) (s : Nat) (ops : List (List Str × List Str)) (tag : Str) (htag : tag ≠ "".toList)
    (hden : Den h r pm) (hpm : pm.alias = none) (hdepth : depth pm ≤ F)
    (hstep : newStep F E ⟨h, [], []⟩ "".toList (.pmod r) none [] = (σ0, .ok s))
    (hread : tagPaths F E σ0 s ops = .ok σ)
    (hnames : ∀ op ∈ ops, ∀ k ∈ op.1, StepName k ∧ Ordinary k ∧ Plain k)
    (halias : ∀ op ∈ ops, ∀ a as, AliasesAlong E (some pm) ("".toList :: op.1) (a :: as) →
      (∀ x, a = some x → RootAlias x) ∧ ∀ x, some x ∈ as → RelativeAlias x)
    (hF : ∀ op ∈ ([], []) :: ops, op.1.length < F) :
    ∃ l, pstepPaths F σ s (some tag) = .ok l ∧ StrictlySorted l ∧
      ∀ x, x ∈ l ↔ ∃ p tags, (p, tags) ∈ ops ∧ tag ∈ tags ∧ pm.mapPath E (pathText ("".toList :: p)) = .ok x := by
  have hn : ∀ op ∈ ops, ReadNames op.1 := fun op hp k hk => ⟨(hnames op hp k hk).1, (hnames op hp k hk).2.1.1⟩
  obtain ⟨dE, dO⟩ := descendH_den (F := F) (E := E) hden (within_depth pm) hdepth "".toList
  cases hdesc : pm.descend E "".toList with
  | error e =>
    exfalso
    have := dE e hdesc
    simp only [newStep, this] at hstep
    cases hstep
  | ok ta =>
    obtain ⟨t, a⟩ := ta
    obtain ⟨h', p', e1, e2, e3, e4⟩ := dO t a hdesc
    have hstep2 : newStep F E ⟨h, [], []⟩ "".toList (.pmod r) none [] =
        (⟨h', [⟨nameFor "".toList a, "".toList, p', none, canRelocate, []⟩], []⟩, .ok 0) := by
      simp only [newStep, e1]
      cases a with
      | none => rfl
      | some m => rfl
    rw [hstep] at hstep2
    injection hstep2 with hs1 hs2
    injection hs2 with hs2
    subst hs1; subst hs2
    obtain ⟨l, l1, l2, l3, hsome⟩ := paths_tagged (F := F) hdepth (r := 0)
      (tidy_root (E := E) (D := depth pm) (o := ⟨nameFor "".toList a, "".toList, p', none, canRelocate, []⟩) rfl e3 e4)
      hn rfl e3 (root_fresh rfl) rfl hF hread tag htag
    refine ⟨l, l1, l2, fun x => ?_⟩
    rw [l3 x]
    have key : ∀ p tags, (p, tags) ∈ ops → ∀ as u, Along E t p as u →
        pm.mapPath E (pathText ("".toList :: p)) = .ok (joinPaths (nameFor "".toList a :: namesFor p as)) := by
      intro p tags hp as u hal
      have hal2 : AliasesAlong E (some pm) ("".toList :: p) (a :: as) :=
        along_iff.2 ⟨u, .cons (some pm) t "".toList a p as u hdesc hal⟩
      obtain ⟨q1, q2⟩ := halias _ hp a as hal2
      exact mapped_text hpm hdesc hal q1 q2 (fun k hk => ⟨(hnames _ hp k hk).2.2, (hnames _ hp k hk).2.1⟩)
    constructor
    · rintro ⟨p, tags, as, u, g1, g2, hal, rfl⟩
      exact ⟨p, tags, g1, g2, key p tags g1 as u hal⟩
    · rintro ⟨p, tags, g1, g2, hx⟩
      obtain ⟨as, u, hal⟩ := hsome _ g1
      rw [key p tags g1 as u hal] at hx
      injection hx with hx
      exact ⟨p, tags, as, u, g1, g2, hal, hx.symm⟩

/-- Some tagged, some not. -/
example : (match tagPaths 9 Tests.toy (newStep 9 Tests.toy ⟨[], [], []⟩ [] .none none []).1 0
      [(["b".toList, "c".toList], ["in".toList]), (["a".toList], []), (["b".toList], ["in".toList, "out".toList])] with
    | .ok σ => (match pstepPaths 9 σ 0 (some "in".toList) with
      | .ok l => l == ["/b".toList, "/b/c".toList]
      | .error _ => false)
    | .error _ => false) = true := by decide +kernel
example : (match tagPaths 9 Tests.toy (newStep 9 Tests.toy ⟨mapsAB, [], []⟩ "".toList (.pmod 0) none []).1 0
      [(["a".toList, "b".toList], ["in".toList]), (["a".toList], []), (["c".toList], ["out".toList])] with
    | .ok σ => (match pstepPaths 9 σ 0 (some "in".toList) with
      | .ok l => l == ["/A/x/B".toList]
      | .error _ => false)
    | .error _ => false) = true := by decide +kernel

end Props
