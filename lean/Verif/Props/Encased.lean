import Verif.Props.DoLasso
import Verif.Lemmas.RegexSound
import Mathlib.Data.List.TakeDrop
set_option linter.unusedSimpArgs false
/-
C45 encased references.
-/
namespace Lemmas
open Py Model Spec

/-- No class of the expression accepts the character. -/
def avoids (q : Char) : Re → Bool
  | .eps => true
  | .cls p => !p q
  | .seq a b => avoids q a && avoids q b
  | .alt a b => avoids q a && avoids q b
  | .star a => avoids q a
  | .lazyStar a => avoids q a
  | .grp _ a => avoids q a
  | .backref _ => false
  | .eos => true

theorem run_avoids {q : Char} {a : Re} {s s' : Str} {c c' : Caps} (h : Re.Run a s c s' c') (ha : avoids q a = true) :
    ∃ t, s = t ++ s' ∧ q ∉ t := by
  induction h with
  | eps => exact ⟨[], rfl, by simp⟩
  | @cls p x t c hp =>
    refine ⟨[x], rfl, ?_⟩
    simp only [List.mem_singleton]
    rintro rfl
    simp [avoids, hp] at ha
  | seq _ _ h1 h2 =>
    obtain ⟨t1, e1, q1⟩ := h1 (by simp [avoids] at ha; exact ha.1)
    obtain ⟨t2, e2, q2⟩ := h2 (by simp [avoids] at ha; exact ha.2)
    exact ⟨t1 ++ t2, by rw [e1, e2, List.append_assoc], by simp [q1, q2]⟩
  | altL _ h => simp [avoids] at ha; exact h ha.1
  | altR _ h => simp [avoids] at ha; exact h ha.2
  | starNil => exact ⟨[], rfl, by simp⟩
  | starCons _ _ _ h1 h2 =>
    obtain ⟨t1, e1, q1⟩ := h1 ha
    obtain ⟨t2, e2, q2⟩ := h2 ha
    exact ⟨t1 ++ t2, by rw [e1, e2, List.append_assoc], by simp [q1, q2]⟩
  | lazyNil => exact ⟨[], rfl, by simp⟩
  | lazyCons _ _ _ h1 h2 =>
    obtain ⟨t1, e1, q1⟩ := h1 ha
    obtain ⟨t2, e2, q2⟩ := h2 ha
    exact ⟨t1 ++ t2, by rw [e1, e2, List.append_assoc], by simp [q1, q2]⟩
  | grp _ h => exact h ha
  | backref _ _ => simp [avoids] at ha
  | eos _ => exact ⟨[], rfl, by simp⟩

/-- The last occurrence of a character. -/
theorem last_split {q : Char} {g w a b : Str} (h : g ++ q :: w = a ++ b) (hb : q ∉ b) :
    ∃ w', a = g ++ q :: w' ∧ w = w' ++ b := by
  rcases List.append_eq_append_iff.1 h with ⟨d, h1, h2⟩ | ⟨d, h1, h2⟩
  · cases d with
    | nil => simp at h2; exact absurd (h2 ▸ List.mem_cons_self) hb
    | cons x d =>
      simp only [List.cons_append, List.cons.injEq] at h2
      exact ⟨d, by rw [h1, h2.1], h2.2⟩
  · exact absurd (by rw [h2]; simp) hb

/-- The encasing characters. -/
def quotes : List Char := "/\\\"$%&".toList

theorem quote_facts : ∀ q ∈ quotes, isSpaceU q = false ∧ isAZi q = false ∧ isMarginDot q = false ∧ isMargin q = false ∧
    isDigit19 q = false ∧ isDigitU q = false ∧ isExpChar q = false ∧ isLURD q = false ∧ q ∉ "!:()+?-RrCcLlUuDd#\n“”".toList := by
  decide

theorem avoids_edge {q : Char} (hq : q ∈ quotes) : avoids q (Re.opt (reEdge stNames isMargin)) = true ∧
    avoids q (Re.opt reRange) = true := by
  have key : ∀ q ∈ quotes, avoids q (Re.opt (reEdge stNames isMargin)) = true ∧
    avoids q (Re.opt reRange) = true := by decide
  exact key q hq

/-- A fragment followed by an encasing character is no reference, unless there are filters. -/
theorem encased_no_match {f w : Str} {q : Char} (hq : q ∈ quotes) (hw : Spaces w)
    (hf : ∀ x ∈ f, x ∉ "{[\"".toList) (hc : q = '"' → ∀ a v, f = a ++ ':' :: v → ¬ Spaces v) :
    reXlref.match? (f ++ q :: w) = none := by
  rw [← Option.not_isSome_iff_eq_none, match_isSome_iff]
  rintro ⟨s', c', h⟩
  obtain ⟨hsp, -, -, -, -, -, -, -, hq9⟩ := quote_facts q hq
  obtain ⟨av1, av2⟩ := avoids_edge hq
  have hqw : ∀ v, v <:+ w → q ∉ v := by
    intro v hv hm
    rw [hw q (hv.subset hm)] at hsp; simp at hsp
  simp only [reXlref, Re.seqs] at h
  cases h with | seq h1 h =>
  cases h with | seq h2 h =>
  cases h with | seq h3 h =>
  cases h with | seq h4 h =>
  cases h with | seq h5 h =>
  cases h with | eos hend =>
  rename_i s1 c1 s2 c2 s3 c3 s4 c4
  obtain ⟨t1, e1, q1⟩ := run_avoids (q := q) h1 (by simp [avoids, hsp])
  obtain ⟨t3, e3, q3⟩ := run_avoids (q := q) h3 av1
  obtain ⟨t4, e4, q4⟩ := run_avoids (q := q) h4 av2
  have hsheet : s2 = s1 ∨ ∃ x, s1 = x ++ '!' :: s2 := by
    have h2' : Re.Run (Re.opt (.seq (Re.opt (.grp "sh_name" (.plus (.cls (fun c => c != '!'))))) (.chr '!'))) s1 c1 s2 c2 := h2
    rcases run_opt h2' with h2 | ⟨h2, _⟩
    · cases h2 with | seq ha hb =>
      obtain ⟨_, x, e, hx⟩ := run_cls hb
      obtain ⟨t, ht⟩ := run_suffix ha
      refine .inr ⟨t, ?_⟩
      rw [← ht, e]; simp at hx; rw [hx]
    · exact .inl h2
  rcases run_opt h5 with h6 | ⟨h5, _⟩
  · -- filters
    clear h5
    simp only [reFilt, Re.seqs] at h6
    cases h6 with | seq ha h6 =>
    cases h6 with | seq hb h6 =>
    cases h6 with | grp h6 =>
    cases h6 with | seq hy h6 =>
    obtain ⟨_, x, ea, hx⟩ := run_cls ha
    obtain ⟨_, v, eb, hv⟩ := run_star_cls hb
    obtain ⟨_, y, ey, hyy⟩ := run_cls hy
    obtain ⟨a, hsuf⟩ := ((run_suffix h4).trans (run_suffix h3)).trans ((run_suffix h2).trans (run_suffix h1))
    have hyin : y ∈ "{[\"".toList := by
      simp at hyy ⊢; rcases hyy with (h | h) | h <;> simp [h]
    have hysp : isSpaceU y = false := by
      have : ∀ y ∈ "{[\"".toList, isSpaceU y = false := by decide
      exact this y hyin
    have hx' : x = ':' := by simpa using hx
    rw [ea, eb, ey, hx'] at hsuf
    have heq : ∃ z, f ++ q :: w = (a ++ ':' :: v) ++ y :: z := ⟨_, by rw [← hsuf]; simp; rfl⟩
    obtain ⟨z, heq⟩ := heq
    rcases List.append_eq_append_iff.1 heq with ⟨d, h6, h7⟩ | ⟨d, h6, h7⟩
    · cases d with
      | nil =>
        simp at h7 h6
        obtain ⟨rfl, _⟩ := h7
        by_cases hqq : q = '"'
        · exact hc hqq a v h6.symm (fun z hz => hv z hz)
        · have : ∀ q ∈ quotes, q ∈ "{[\"".toList → q = '"' := by decide
          exact hqq (this q hq hyin)
      | cons z d =>
        simp only [List.cons_append, List.cons.injEq] at h7
        have : y ∈ w := by rw [h7.2]; simp
        rw [hw y this] at hysp; simp at hysp
    · cases d with
      | nil =>
        simp at h7 h6
        obtain ⟨rfl, _⟩ := h7
        by_cases hqq : y = '"'
        · exact hc hqq a v h6 (fun z hz => hv z hz)
        · have : ∀ q ∈ quotes, q ∈ "{[\"".toList → q = '"' := by decide
          exact hqq (this y hq hyin)
      | cons z d =>
        simp only [List.cons_append, List.cons.injEq] at h7
        exact hf y (by rw [h6, h7.1]; simp) hyin
  · -- no filters
    subst h5
    have hqs : q ∉ s' := by
      intro hm
      simp only [atEnd, Bool.or_eq_true, beq_iff_eq] at hend
      rcases hend with rfl | rfl
      · simp at hm
      · simp at hm; subst hm; revert hq9; decide
    have hq2 : q ∉ s2 := by rw [e3, e4]; simp [q3, q4, hqs]
    rcases hsheet with hs | ⟨x, hs⟩
    · have : q ∉ f ++ q :: w := by rw [e1, ← hs]; simp [q1, hq2]
      simp at this
    · have : f ++ q :: w = (t1 ++ x ++ ['!']) ++ s2 := by rw [e1, hs]; simp
      obtain ⟨w', h6, h7⟩ := last_split this hq2
      cases hw' : w'.reverse with
      | nil =>
        simp at hw'
        subst hw'
        have := congrArg List.getLast? h6
        simp at this
        subst this
        revert hq9; decide
      | cons z r =>
        have e : w' = r.reverse ++ [z] := by rw [← List.reverse_reverse w', hw']; simp
        rw [e] at h6
        rw [show f ++ q :: (r.reverse ++ [z]) = (f ++ q :: r.reverse) ++ [z] by simp] at h6
        have := congrArg List.getLast? h6
        rw [List.getLast?_concat, List.getLast?_concat, Option.some.injEq] at this
        have hz : isSpaceU z = true := hw z (by rw [h7, e]; simp)
        rw [← this] at hz; revert hz; decide

theorem urldefrag_split {u f : Str} (h : '#' ∉ u) : urldefrag (u ++ '#' :: f) = (u, f) := by
  have : (u ++ '#' :: f).span (fun c => c != '#') = (u, '#' :: f) := by
    have : List.span (fun c => c != '#') (u ++ '#' :: f) =
        ((u ++ '#' :: f).takeWhile (fun c => c != '#'), (u ++ '#' :: f).dropWhile (fun c => c != '#')) :=
      List.span_eq_takeWhile_dropWhile ..
    rw [this]
    congr 1
    · rw [List.takeWhile_append_of_pos]
      · simp
      · intro x hx; simp; rintro rfl; exact h hx
    · rw [List.dropWhile_append_of_pos]
      · simp
      · intro x hx; simp; rintro rfl; exact h hx
  unfold urldefrag
  rw [this]

theorem unsmart_append (a b : Str) : unsmart (a ++ b) = unsmart a ++ unsmart b := by simp [unsmart]

theorem hash_unsmart {u : Str} (h : '#' ∉ u) : '#' ∉ unsmart u := by
  simp only [unsmart, List.mem_map, not_exists, not_and]
  intro x hx
  split
  · decide
  · rintro rfl; exact h hx

/-- What an encased text consists of. -/
theorem encase_match {ws t ws' : Str} {q : Char} (hq : q ∈ quotes) (hws : Spaces ws) (hws' : Spaces ws') (ht : t ≠ []) :
    ∃ s' c, reEncase.match? (ws ++ q :: (t ++ q :: ws')) = some (s', c) ∧ c "2" = some t := by
  obtain ⟨hsp, -, -, -, -, -, -, -, hq9⟩ := quote_facts q hq
  have hsome : (reEncase.match? (ws ++ q :: (t ++ q :: ws'))).isSome := by
    rw [match_isSome_iff]
    have star : ∀ (p : Char → Bool) (v r : Str) (c : Caps), (∀ x ∈ v, p x = true) → Re.Run (.star (.cls p)) (v ++ r) c r c := by
      intro p v r c
      induction v with
      | nil => intro _; exact .starNil
      | cons x v ih =>
        intro h
        exact .starCons (.cls (h x (by simp))) (by simp) (ih (fun y hy => h y (by simp [hy])))
    have grp : ∀ (n : String) (a : Re) (v r : Str) (c c1 : Caps), Re.Run a (v ++ r) c r c1 →
        Re.Run (.grp n a) (v ++ r) c r (c1.put n v) := by
      intro n a v r c c1 h
      have := Re.Run.grp (n := n) h
      rwa [take_prefix] at this
    obtain ⟨x, t', rfl⟩ := List.exists_cons_of_ne_nil ht
    have hqc : ("/\\\"$%&".toList.contains q) = true := by rw [List.contains_iff_mem]; exact hq
    refine ⟨[], Caps.put (Caps.put Caps.empty "q" [q]) "2" (x :: t'), .seq (star _ ws _ _ hws) (.seq (grp "q" _ [q] _ _ _ (.cls hqc))
      (.seq (grp "2" _ (x :: t') (q :: ws') _ _ (.seq (.cls rfl) (star _ t' (q :: ws') _ (fun _ _ => rfl))))
      (.seq (.backref (t := [q]) ?_ ?_) (.seq (s1 := []) ?_ (.eos rfl)))))⟩
    · rfl
    · simp
    · have := star isSpaceU ws' [] (Caps.put (Caps.put Caps.empty "q" [q]) "2" (x :: t')) hws'
      simpa using this
  obtain ⟨⟨s', c⟩, hm⟩ := Option.isSome_iff_exists.1 hsome
  refine ⟨s', c, hm, ?_⟩
  have h := match_run hm
  simp only [reEncase, Re.seqs] at h
  cases h with | seq h1 h =>
  cases h with | seq h2 h =>
  cases h with | seq h3 h =>
  cases h with | seq h4 h =>
  cases h with | seq h5 h =>
  cases h with | eos hend =>
  obtain ⟨rfl, v, e1, hv⟩ := run_star_cls h1
  rename_i s1 s2 c2 s3 c3 s4 c4
  have hgrp2 : ∃ y, s1 = y :: s2 ∧ quotes.contains y = true ∧ c2 = Caps.put Caps.empty "q" [y] := by
    cases h2 with | grp h2 =>
    obtain ⟨rfl, y, e, hy⟩ := run_cls h2
    refine ⟨y, e, hy, ?_⟩
    rw [e, show y :: s2 = [y] ++ s2 from rfl, take_prefix]
  obtain ⟨y, e2, hy, hc2⟩ := hgrp2
  obtain ⟨t3, e3⟩ := run_suffix h3
  subst e3
  obtain ⟨c3', h3, hc3⟩ := run_grp h3
  obtain ⟨rfl, _⟩ := run_plus_cls h3
  have hyq : y ∈ quotes := by rwa [List.contains_iff_mem] at hy
  have hysp := (quote_facts y hyq).1
  -- the opening character
  have hopen : v = ws ∧ y = q ∧ t3 ++ s3 = t ++ q :: ws' := by
    rw [e2] at e1
    rcases List.append_eq_append_iff.1 e1 with ⟨d, h6, h7⟩ | ⟨d, h6, h7⟩
    · cases d with
      | nil => simp at h6 h7; exact ⟨h6, h7.1.symm, h7.2.symm⟩
      | cons z d =>
        simp only [List.cons_append, List.cons.injEq] at h7
        have := hv q (by rw [h6, h7.1]; simp)
        rw [this] at hsp; simp at hsp
    · cases d with
      | nil => simp at h6 h7; exact ⟨h6.symm, h7.1, h7.2⟩
      | cons z d =>
        simp only [List.cons_append, List.cons.injEq] at h7
        have := hws y (by rw [h6, h7.1]; simp)
        rw [this] at hysp; simp at hysp
  obtain ⟨rfl, rfl, e3⟩ := hopen
  have hc4 : s3 = y :: s4 ∧ c4 = c3 := by
    rw [hc3, hc2] at h4
    cases h4 with
    | backref h6 h7 =>
      rename_i r
      have : r = [y] := by simpa [Caps.put] using h6.symm
      subst this
      refine ⟨?_, by rw [hc3, hc2]⟩
      cases s3 with
      | nil => simp at h7
      | cons z s3 => simp at h7; simp [h7]
  obtain ⟨e4, rfl⟩ := hc4
  obtain ⟨rfl, w, e5, hw⟩ := run_star_cls h5
  have hlast : y ∉ s4 := by
    rw [e5]
    intro hm
    rcases List.mem_append.1 hm with hm | hm
    · rw [hw y hm] at hysp; simp at hysp
    · simp only [atEnd, Bool.or_eq_true, beq_iff_eq] at hend
      rcases hend with rfl | rfl
      · simp at hm
      · simp at hm; subst hm; revert hysp; decide
  have hlast' : y ∉ ws' := fun hm => by rw [hws' y hm] at hysp; simp at hysp
  have ht3 : t3 = t := by
    rw [e4] at e3
    have h8 : t ++ y :: ws' = (t3 ++ [y]) ++ s4 := by rw [← e3]; simp
    obtain ⟨w1, h9, h10⟩ := last_split h8 hlast
    cases hw1 : w1.reverse with
    | nil =>
      simp at hw1
      subst hw1
      exact List.append_cancel_right h9
    | cons z r =>
      have e : w1 = r.reverse ++ [z] := by rw [← List.reverse_reverse w1, hw1]; simp
      rw [e, show t ++ y :: (r.reverse ++ [z]) = (t ++ y :: r.reverse) ++ [z] by simp] at h9
      have := congrArg List.getLast? h9
      rw [List.getLast?_concat, List.getLast?_concat, Option.some.injEq] at this
      exact absurd (by rw [h10, e, this]; simp) hlast'
  rw [hc3, ht3]
  simp [Caps.put]

end Lemmas

namespace Props
open Py Model Spec Lemmas

/-- A text encased: between two equal characters of `/\"$%&`, with any spaces around. -/
structure Encased (s t : Str) : Prop where
  shape : ∃ ws q ws', q ∈ "/\\\"$%&".toList ∧ Spaces ws ∧ Spaces ws' ∧ s = ws ++ q :: (t ++ q :: ws') ∧
    (q = '"' → ∀ a v, t = a ++ ':' :: v → ¬ Spaces v)

/-- C45, on parsing only. Encasing a reference without filters changes nothing in its parsed fields; double
quotes cannot encase a reference ending in a colon. -/
theorem C45_parse_partial (jsonLoads : Str → Option Doc) (u f : Str) (p : XlRef) (s : Str)
    (hu : '#' ∉ u) (hf : ∀ x ∈ f, x ∉ "{[\"“”".toList)
    (hp : parseXlref1 jsonLoads (u ++ '#' :: f) = .ok p) (hs : Encased s (u ++ '#' :: f)) :
    parseXlref jsonLoads s = .ok { p with encased := some s } := by
  obtain ⟨ws, q, ws', hq, hws, hws', rfl, hcol⟩ := hs.shape
  obtain ⟨hsp, -, -, -, -, -, -, -, hq9⟩ := quote_facts q hq
  have hfs : unsmart f = f := by
    conv => rhs; rw [← List.map_id f]
    apply List.map_congr_left
    intro x hx
    have := hf x hx
    simp at this
    simp [this]
  have hsm : ∀ w, Spaces w → unsmart w = w := by
    intro w hw
    conv => rhs; rw [← List.map_id w]
    apply List.map_congr_left
    intro x hx
    have h1 := hw x hx
    have : x ≠ '“' ∧ x ≠ '”' := by constructor <;> (rintro rfl; revert h1; decide)
    simp [this]
  have hq' : unsmart [q] = [q] := by
    have : q ≠ '“' ∧ q ≠ '”' := by constructor <;> (rintro rfl; revert hq9; decide)
    simp [unsmart, this]
  have hbad : parseXlref1 jsonLoads (ws ++ q :: ((u ++ '#' :: f) ++ q :: ws')) = .error .syntaxError := by
    have e : unsmart (ws ++ q :: ((u ++ '#' :: f) ++ q :: ws')) =
        (ws ++ q :: unsmart u) ++ '#' :: (f ++ q :: ws') := by
      have : ws ++ q :: ((u ++ '#' :: f) ++ q :: ws') = ws ++ ([q] ++ (u ++ (['#'] ++ (f ++ ([q] ++ ws'))))) := by simp
      rw [this]
      simp only [unsmart_append, hsm ws hws, hsm ws' hws', hq', hfs]
      simp [unsmart]
    have hno : '#' ∉ ws ++ q :: unsmart u := by
      simp only [List.mem_append, List.mem_cons, not_or]
      refine ⟨fun hm => ?_, ?_, hash_unsmart hu⟩
      · have := hws _ hm; revert this; decide
      · rintro rfl; revert hq9; decide
    unfold parseXlref1
    simp only [e, urldefrag_split hno]
    rw [if_neg (by simp)]
    have hm := encased_no_match (f := f) (w := ws') hq hws' (fun x hx => by
      have := hf x hx; simp at this ⊢; simp [this]) (fun hqq a v hav => by
      apply hcol hqq (u ++ '#' :: a) v; rw [hav]; simp)
    simp only [parseFragment, hm]
  obtain ⟨s', c, hm, h2⟩ := encase_match (t := u ++ '#' :: f) hq hws hws' (by simp)
  unfold parseXlref
  rw [hbad]
  simp only [hm, h2, Option.getD_some, hp]

/-- C45 is false of the code: an encased reference is never lassoed. Whatever the sheets and the context,
`ValueError` is raised for every encased reference (without filters), since the parser returns a field
`xl-ref` that lassos do not have. -/
theorem C45_encased_refuted {S : Type} (R : Ranger S) (A : SheetApi S) (ctx : Lasso S) (jsonLoads : Str → Option Doc)
    (u f : Str) (p : XlRef) (s : Str) (hu : '#' ∉ u) (hf : ∀ x ∈ f, x ∉ "{[\"“”".toList)
    (hp : parseXlref1 jsonLoads (u ++ '#' :: f) = .ok p) (hs : Encased s (u ++ '#' :: f)) :
    R.doLasso A jsonLoads s ctx = .error .valueError := by
  simp [Ranger.doLasso, Ranger.parseMerge, C45_parse_partial jsonLoads u f p s hu hf hp hs]

/-- C45. The bare reference works, the encased one does not. -/
theorem C45_witness_refuted :
    (∃ l, gridRanger.doLasso arrayApi (fun _ => none) "#A1:B2".toList { sheet := some ⟨4, 3, fun _ _ => .null⟩ } =
      .ok (.lasso l)) ∧
    gridRanger.doLasso arrayApi (fun _ => none) "\"#A1:B2\"".toList { sheet := some ⟨4, 3, fun _ _ => .null⟩ } =
      .error .valueError := ⟨⟨_, by rfl⟩, by rfl⟩

/-- C45. With double quotes around a reference that ends in a colon, the quote is taken for a filter. -/
theorem C45_colon_refuted (jsonLoads : Str → Option Doc) (h : jsonLoads "\"".toList = none) :
    (∃ p, parseXlref jsonLoads "#A1:".toList = .ok p) ∧
    parseXlref jsonLoads "\"#A1:\"".toList = .error .valueError := by
  refine ⟨⟨_, by rfl⟩, ?_⟩
  have e : parseXlref1 jsonLoads "\"#A1:\"".toList = .error .valueError := by
    have hm : ∃ r c, reXlref.match? "A1:\"".toList = some (r, c) ∧ c "js_filt" = some "\"".toList := ⟨_, _, by rfl, by rfl⟩
    obtain ⟨r, c, hm, hc⟩ := hm
    have hu : unsmart "\"#A1:\"".toList = ['"'] ++ '#' :: "A1:\"".toList := by rfl
    unfold parseXlref1
    simp only [hu, urldefrag_split (show '#' ∉ ['"'] by decide)]
    rw [if_neg (by decide)]
    simp only [parseFragment, hm, hc, parseFilters, h]
  unfold parseXlref
  rw [e]

example : Encased " $file.xls#Sheet1!A1:B2$  ".toList "file.xls#Sheet1!A1:B2".toList :=
  ⟨⟨" ".toList, '$', "  ".toList, by decide, by unfold Spaces; decide, by unfold Spaces; decide, by rfl,
    fun h => absurd h (by decide)⟩⟩

end Props
