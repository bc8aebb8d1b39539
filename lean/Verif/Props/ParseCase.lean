import Verif.Lemmas.RegexCase
import Verif.Lemmas.RegexSound
import Verif.Props.Parse
/-
C42: case-insensitivity of references.
-/
set_option linter.unusedSimpArgs false
namespace Props
open Py Model Spec

private theorem closed : reXlref.CaseClosed := caseClosed_of_check _ (by decide +kernel)

private theorem parseEdge_recased {c d : Caps} (h : RecasedC c d) (n : EdgeNames) (e : Option TEdge)
    (hmod : ∀ x y, c n.mod = some x → d n.mod = some y → x = y) : parseEdge c n e = parseEdge d n e := by
  have o : ∀ {a b a' b' : Option Str}, RecasedO a a' → RecasedO b b' → RecasedO (a.or b) (a'.or b') := by
    intro a b a' b' h1 h2
    cases a <;> cases a' <;> simp [RecasedO] at h1 ⊢
    · exact h2
    · exact h1
  have hn : ∀ {a a' : Option Str}, RecasedO a a' → (a = none ↔ a' = none) := by
    intro a a' h1
    cases a <;> cases a' <;> simp [RecasedO] at h1 ⊢
  have hu : ∀ {a a' : Option Str}, RecasedO a a' → upper (a.getD []) = upper (a'.getD []) ∧ a.map upper = a'.map upper := by
    intro a a' h1
    cases a <;> cases a' <;> simp [RecasedO] at h1 ⊢
    exact h1.upper
  have hr := o (h n.row) (h n.row2)
  have hc := o (h n.col) (h n.col2)
  have hm : c n.mod = d n.mod := by
    have := h n.mod
    cases h1 : c n.mod <;> cases h2 : d n.mod <;> rw [h1, h2] at this <;> simp [RecasedO] at this ⊢
    exact hmod _ _ h1 h2
  unfold parseEdge edgeNew
  simp only [hn hr, hn hc, hn (h n.mov), hm, (hu hr).1, (hu hc).1, (hu (h n.mov)).2]

private theorem mod_cls {s s' : Str} {c c' : Caps}
    (h : Re.Run (.cls (fun c => c == '+' || c == '?')) s c s' c') :
    s.take (s.length - s'.length) = ['+'] ∨ s.take (s.length - s'.length) = ['?'] := by
  obtain ⟨_, x, rfl, hx⟩ := run_cls h
  simp at hx
  rcases hx with rfl | rfl <;> simp

/-- The modifier of an edge is `+` or `?`. -/
private theorem mods {s s' : Str} {c' : Caps} (h : reXlref.match? s = some (s', c')) (n : String)
    (hn : n = "st_mod" ∨ n = "nd_mod") : ∀ t, c' n = some t → t = ['+'] ∨ t = ['?'] := by
  refine run_grpOk (match_run h) ?_ (by intro t ht; simp [Caps.empty] at ht)
  rcases hn with rfl | rfl
  · simp only [reXlref, Re.seqs, Re.GrpOk, true_and]
    refine ⟨grpOk_of_not_mem _ (by decide), ?_, grpOk_of_not_mem _ (by decide), grpOk_of_not_mem _ (by decide), trivial⟩
    refine ⟨⟨grpOk_of_not_mem _ (by decide), ⟨?_, trivial⟩⟩, trivial⟩
    refine ⟨trivial, grpOk_of_not_mem _ (by decide), ⟨⟨trivial, fun _ s c s' c' hr => mod_cls hr⟩, trivial⟩, trivial⟩
  · simp only [reXlref, Re.seqs, Re.GrpOk, true_and]
    refine ⟨grpOk_of_not_mem _ (by decide), grpOk_of_not_mem _ (by decide), ?_, grpOk_of_not_mem _ (by decide), trivial⟩
    refine ⟨⟨grpOk_of_not_mem _ (by decide), ⟨⟨grpOk_of_not_mem _ (by decide), ⟨?_, trivial⟩⟩, trivial⟩,
      grpOk_of_not_mem _ (by decide)⟩, trivial⟩
    refine ⟨trivial, grpOk_of_not_mem _ (by decide), ⟨⟨trivial, fun _ s c s' c' hr => mod_cls hr⟩, trivial⟩, trivial⟩

private theorem recased_agree {s t : Str} (h : Recased s t) :
    (reXlref.match? s = none ∧ reXlref.match? t = none) ∨
    ∃ s' t' c d, reXlref.match? s = some (s', c) ∧ reXlref.match? t = some (t', d) ∧ RecasedC c d ∧
      fragmentEdges c = fragmentEdges d := by
  have hm := match_recased reXlref closed h
  cases h1 : reXlref.match? s with
  | none =>
    cases h2 : reXlref.match? t with
    | none => exact .inl ⟨rfl, rfl⟩
    | some y => rw [h1, h2] at hm; simp [Agree] at hm
  | some x =>
    cases h2 : reXlref.match? t with
    | none => rw [h1, h2] at hm; simp [Agree] at hm
    | some y =>
      rw [h1, h2] at hm
      obtain ⟨s', c⟩ := x
      obtain ⟨t', d⟩ := y
      have hc : RecasedC c d := hm.2
      refine .inr ⟨s', t', c, d, rfl, rfl, hc, ?_⟩
      have hcolon : (c "colon").isSome = (d "colon").isSome := by
        have := hc "colon"
        cases e1 : c "colon" <;> cases e2 : d "colon" <;> rw [e1, e2] at this <;> simp [RecasedO] at this ⊢
      have hlen : ∀ n, n = "st_mod" ∨ n = "nd_mod" → ∀ x y, c n = some x → d n = some y → x = y := by
        intro n hn x y e1 e2
        have hxy := hc n
        rw [e1, e2] at hxy
        have q : Recased x y := hxy
        have hx := mods h1 n hn x e1
        have hy := mods h2 n hn y e2
        have := q.upper
        rcases hx with rfl | rfl <;> rcases hy with rfl | rfl <;> first | rfl | exact absurd this (by decide)
      unfold fragmentEdges
      simp only [hcolon]
      rw [parseEdge_recased hc stNames _ (hlen "st_mod" (.inl rfl)), parseEdge_recased hc ndNames _ (hlen "nd_mod" (.inr rfl))]

/-- C42. Texts that differ only in the case of letters are both references or both not. -/
theorem C42_same_verdict (jsonLoads : Str → Option Doc) (s t : Str) (h : Recased s t) :
    parseFragment jsonLoads s = .error .syntaxError ↔ parseFragment jsonLoads t = .error .syntaxError := by
  have hcs : ∀ d, parseCallSpec d ≠ .error .syntaxError := by
    intro d hp
    by_cases hf : ∃ f a k, CallForm d f a k
    · obtain ⟨f, a, k, hf⟩ := hf
      rw [(C44_accepted_iff _ _ _ _).2 hf] at hp; simp at hp
    · have := C44_otherwise_valueError d (fun f a k hh => hf ⟨f, a, k, hh⟩)
      rw [hp] at this; simp at this
  have hmap : ∀ d (o : Option (List (Str × Doc))),
      (parseCallSpec d).map (fun cs => (o, some cs)) ≠ .error .syntaxError := by
    intro d o hj
    have := hcs d
    cases hp : parseCallSpec d with
    | ok r => rw [hp] at hj; simp [Except.map] at hj
    | error e => rw [hp] at hj this; simp [Except.map] at hj; subst hj; exact this rfl
  have hno : ∀ (jl : Str → Option Doc) (j : Option Str), parseFilters jl j ≠ .error .syntaxError := by
    intro jl j hj
    have hif : ∀ d (o : Option (List (Str × Doc))),
        (if d.truthy then (parseCallSpec d).map (fun cs => (o, some cs)) else .ok (o, none)) ≠
          .error PyErr.syntaxError := by
      intro d o
      split
      · exact hmap d o
      · simp
    unfold parseFilters at hj
    split at hj
    · simp at hj
    · split at hj
      · simp at hj
      · simp only at hj
        split at hj
        · simp at hj
        · exact hif _ _ hj
  have key : ∀ s, parseFragment jsonLoads s = .error .syntaxError ↔ reXlref.match? s = none := by
    intro s
    unfold parseFragment
    cases hm : reXlref.match? s with
    | none => simp
    | some x =>
      simp only [reduceCtorEq, iff_false]
      intro hh
      have := hno jsonLoads (x.2 "js_filt")
      cases hf : parseFilters jsonLoads (x.2 "js_filt") with
      | ok p => rw [hf] at hh; simp at hh
      | error e => rw [hf] at hh this; simp at hh; subst hh; exact this rfl
  rw [key, key]
  rcases recased_agree h with ⟨h1, h2⟩ | ⟨s', t', c, d, h1, h2, _⟩ <;> simp [h1, h2]

/-- C42. Their parse results have the same edges; sheet name and expansion moves differ at most in case,
and no case in expansion moves matters to their meaning. -/
theorem C42_same_edges (jsonLoads : Str → Option Doc) (s t : Str) (h : Recased s t) (f g : Fragment)
    (hf : parseFragment jsonLoads s = .ok f) (hg : parseFragment jsonLoads t = .ok g) :
    f.stEdge = g.stEdge ∧ f.ndEdge = g.ndEdge ∧ RecasedO f.shName g.shName ∧ RecasedO f.expMoves g.expMoves ∧
    f.expMoves.map parseExpMoves = g.expMoves.map parseExpMoves := by
  rcases recased_agree h with ⟨h1, h2⟩ | ⟨s', t', c, d, h1, h2, hc, he⟩
  · rw [parseFragment, h1] at hf; simp at hf
  · rw [parseFragment, h1] at hf
    rw [parseFragment, h2] at hg
    simp only at hf hg
    cases hf1 : parseFilters jsonLoads (c "js_filt") with
    | error e => rw [hf1] at hf; simp at hf
    | ok p =>
      cases hg1 : parseFilters jsonLoads (d "js_filt") with
      | error e => rw [hg1] at hg; simp at hg
      | ok q =>
        rw [hf1] at hf; rw [hg1] at hg
        simp only [Except.ok.injEq] at hf hg
        subst hf; subst hg
        refine ⟨by rw [he], by rw [he], hc _, hc _, ?_⟩
        have := hc "exp_moves"
        simp only
        cases e1 : c "exp_moves" <;> cases e2 : d "exp_moves" <;> rw [e1, e2] at this <;> simp [RecasedO] at this ⊢
        unfold parseExpMoves
        rw [this.upper]

/-- C42. If neither text has filters, re-casing changes nothing but the case of the sheet name. -/
theorem C42_no_filters (jsonLoads : Str → Option Doc) (r r' : RefText) (h : r.Ok) (h' : r'.Ok)
    (hf : r.filt = none) (hf' : r'.filt = none) (hs : r.sheet = r'.sheet) (hc : Recased r.text r'.text) :
    ∃ f g, parseFragment jsonLoads r.text = .ok f ∧ parseFragment jsonLoads r'.text = .ok g ∧
      f.shName = g.shName ∧ f.stEdge = g.stEdge ∧ f.ndEdge = g.ndEdge ∧ f.opts = g.opts ∧ f.callSpec = none ∧
      g.callSpec = none ∧ f.expMoves.map parseExpMoves = g.expMoves.map parseExpMoves := by
  have h1 := C41_round_trip jsonLoads r h hf
  have h2 := C41_round_trip jsonLoads r' h' hf'
  obtain ⟨a, b, _, _, c⟩ := C42_same_edges jsonLoads _ _ hc _ _ h1 h2
  exact ⟨_, _, h1, h2, by simp [RefText.sheetName, hs], a, b, rfl, rfl, rfl, c⟩

/-- C42. With the same filters and the same sheet, re-casing coordinates and moves changes nothing: both
references are refused with the same error, or both parse to the same fields, the expansion moves up to
their case, which does not matter. -/
theorem C42_filters (jsonLoads : Str → Option Doc) (r r' : RefText) (h : r.Ok) (h' : r'.Ok)
    (hf : r.filt = r'.filt) (hs : r.sheet = r'.sheet) (hc : Recased r.text r'.text) :
    (∃ e, parseFragment jsonLoads r.text = .error e ∧ parseFragment jsonLoads r'.text = .error e) ∨
    ∃ f g, parseFragment jsonLoads r.text = .ok f ∧ parseFragment jsonLoads r'.text = .ok g ∧
      f.shName = g.shName ∧ f.stEdge = g.stEdge ∧ f.ndEdge = g.ndEdge ∧ f.opts = g.opts ∧
      f.callSpec = g.callSpec ∧ RecasedO f.expMoves g.expMoves ∧
      f.expMoves.map parseExpMoves = g.expMoves.map parseExpMoves := by
  have h1 : ∀ {r : RefText}, r.Ok → parseFragment jsonLoads r.text =
      match parseFilters jsonLoads (r.filt.map (·.2)) with
      | .error e => .error e
      | .ok (opts, cs) => .ok ⟨r.sheetName, (edgesOf r.st r.range).1, (edgesOf r.st r.range).2, r.range.bind (·.2), opts, cs⟩ := by
    intro r h
    obtain ⟨h1, h2, h3, h4⟩ := groups r
    rw [parseFragment, ref_match h]
    simp only [h1, h2, h3, h4]
    rfl
  have e1 := h1 h
  have e2 := h1 h'
  rw [← hf] at e2
  cases hp : parseFilters jsonLoads (r.filt.map (·.2)) with
  | error e => rw [hp] at e1 e2; exact .inl ⟨e, e1, e2⟩
  | ok oc =>
    rw [hp] at e1 e2
    obtain ⟨a, b, _, d, c⟩ := C42_same_edges jsonLoads _ _ hc _ _ e1 e2
    exact .inr ⟨_, _, e1, e2, by simp [RefText.sheetName, hs], a, b, rfl, rfl, d, c⟩

example : Recased "Sheet1!a1(dr):b2:lu2".toList "Sheet1!A1(DR):B2:LU2".toList := by
  simp [Recased, SameLetter]; decide

end Props
