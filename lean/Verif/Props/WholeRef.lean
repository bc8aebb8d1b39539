import Verif.Lemmas.ParseSound
import Verif.Props.Encased
/-
C76: a whole reference is a workbook, a hash and a fragment.
-/
namespace Props
open Py Model Spec Lemmas

/-- A text with straight instead of curly double quotes. -/
def straight : Str → Str
  | [] => []
  | '“' :: s => '"' :: straight s
  | '”' :: s => '"' :: straight s
  | c :: s => c :: straight s

private theorem unsmart_eq (s : Str) : unsmart s = straight s := by
  induction s with
  | nil => rfl
  | cons c s ih =>
    simp only [unsmart] at ih
    simp only [unsmart, List.map_cons, ih]
    by_cases h1 : c = '“'
    · subst h1; rfl
    · by_cases h2 : c = '”'
      · subst h2; rfl
      · simp only [h1, h2, or_self, if_false]
        rw [straight]
        · simpa using h1
        · simpa using h2

private theorem straight_append (s t : Str) : straight (s ++ t) = straight s ++ straight t := by
  simp only [← unsmart_eq, unsmart, List.map_append]

private theorem straight_hash (s : Str) : straight ('#' :: s) = '#' :: straight s := by
  rw [straight] <;> simp

private theorem hash_straight {s : Str} (h : '#' ∉ s) : '#' ∉ straight s := by
  rw [← unsmart_eq]
  intro hm
  simp only [unsmart, List.mem_map] at hm
  obtain ⟨c, hc, he⟩ := hm
  split at he
  · exact absurd he (by decide)
  · subst he; exact h hc

private theorem straight_ne {s : Str} (h : s ≠ []) : straight s ≠ [] := by
  rw [← unsmart_eq]; simpa [unsmart] using h

private theorem straight_nil (s : Str) : straight s = [] ↔ s = [] := by
  rw [← unsmart_eq]; simp [unsmart]

private theorem parse1_hash (jl : Str → Option Doc) (u f : Str) (hu : '#' ∉ u) :
    parseXlref1 jl (u ++ '#' :: f) =
      if f = [] then .error .syntaxError
      else match parseFragment jl (straight f) with
        | .error e => .error e
        | .ok fr => .ok ⟨if u = [] then none else some (straight u), fr, straight (u ++ '#' :: f), none⟩ := by
  unfold parseXlref1
  have e : unsmart (u ++ '#' :: f) = straight u ++ '#' :: straight f := by
    rw [unsmart_eq, straight_append, straight_hash]
  simp only [e, urldefrag_split (hash_straight hu), straight_nil, straight_append, straight_hash]
  cases parseFragment jl (straight f) <;> rfl

/-- C76. A reference is read as the workbook before the first hash, if any, and the fragment after it, with curly
quotes taken for straight ones. -/
theorem C76_parts (jsonLoads : Str → Option Doc) (u f : Str) (hu : '#' ∉ u) (hf : f ≠ []) (fr : Fragment)
    (h : parseFragment jsonLoads (straight f) = .ok fr) :
    parseXlref jsonLoads (u ++ '#' :: f) =
      .ok ⟨if u = [] then none else some (straight u), fr, straight (u ++ '#' :: f), none⟩ := by
  unfold parseXlref
  rw [parse1_hash _ _ _ hu, if_neg hf, h]

/-- C76. When its filters are bad, it is refused with `ValueError`. -/
theorem C76_bad_filters (jsonLoads : Str → Option Doc) (u f : Str) (hu : '#' ∉ u) (hf : f ≠ []) (e : PyErr)
    (h : parseFragment jsonLoads (straight f) = .error e) (he : e ≠ .syntaxError) :
    parseXlref jsonLoads (u ++ '#' :: f) = .error e := by
  unfold parseXlref
  rw [parse1_hash _ _ _ hu, if_neg hf, h]
  cases e <;> first | exact absurd rfl he | rfl

/-- Captured texts are parts of the text. -/
private theorem run_infix {a : Re} {s s' : Str} {c c' : Caps} (h : Re.Run a s c s' c') (s0 : Str) :
    s <:+ s0 → (∀ n t, c n = some t → t <:+: s0) → ∀ n t, c' n = some t → t <:+: s0 := by
  induction h with
  | eps => exact fun _ h => h
  | cls _ => exact fun _ h => h
  | seq r1 _ h1 h2 => exact fun hs hc => h2 ((run_suffix r1).trans hs) (h1 hs hc)
  | altL _ h => exact h
  | altR _ h => exact h
  | starNil => exact fun _ h => h
  | starCons r1 _ _ h1 h2 => exact fun hs hc => h2 ((run_suffix r1).trans hs) (h1 hs hc)
  | lazyNil => exact fun _ h => h
  | lazyCons r1 _ _ h1 h2 => exact fun hs hc => h2 ((run_suffix r1).trans hs) (h1 hs hc)
  | @grp m a s c s1 c1 hr h =>
    intro hs hc n t ht
    by_cases hm : n = m
    · subst hm
      rw [put_same] at ht
      simp at ht; subst ht
      exact (List.take_prefix _ _).isInfix.trans hs.isInfix
    · rw [put_other _ _ _ _ hm] at ht
      exact h hs hc n t ht
  | backref _ _ => exact fun _ h => h
  | eos _ => exact fun _ h => h

private theorem parse1_no_hash (jl : Str → Option Doc) (s : Str) (h : '#' ∉ s) :
    parseXlref1 jl s = .error .syntaxError := by
  have hn := hash_straight h
  rw [← unsmart_eq] at hn
  have key : ∀ t : Str, '#' ∉ t → urldefrag t = (t, []) := by
    intro t ht
    unfold urldefrag
    have : t.span (fun c => c != '#') = (t, []) := by
      have := List.span_eq_takeWhile_dropWhile (p := fun c => c != '#') (l := t)
      rw [this]
      have h1 : ∀ x ∈ t, (x != '#') = true := by
        intro x hx; simp; rintro rfl; exact ht hx
      have h2 : ∀ t : Str, (∀ x ∈ t, (x != '#') = true) → t.dropWhile (fun c => c != '#') = [] := by
        intro t ht
        induction t with
        | nil => rfl
        | cons x t ih => rw [List.dropWhile_cons, if_pos (ht x (by simp))]; exact ih (fun y hy => ht y (List.mem_cons_of_mem _ hy))
      replace h2 := h2 t h1
      have h3 := List.takeWhile_append_dropWhile (p := fun c => c != '#') (l := t)
      rw [h2, List.append_nil] at h3
      rw [h2, h3]
    rw [this]
  unfold parseXlref1
  simp only [key _ hn, if_true]

/-- C76. A text without a hash is no reference. -/
theorem C76_needs_hash (jsonLoads : Str → Option Doc) (s : Str) (h : '#' ∉ s) :
    parseXlref jsonLoads s = .error .syntaxError := by
  unfold parseXlref
  rw [parse1_no_hash _ _ h]
  simp only
  cases hm : reEncase.match? s with
  | none => rfl
  | some m =>
    obtain ⟨s', c⟩ := m
    simp only
    have hn : '#' ∉ (c "2").getD [] := by
      cases hc : c "2" with
      | none => simp
      | some t =>
        have := run_infix (match_run hm) s (List.suffix_refl _) (by intro n t h; cases h) "2" t hc
        intro hx
        exact h (this.subset hx)
    rw [parse1_no_hash _ _ hn]

private theorem last_not_hash (u a z : Str) (q : Char) (hq : q ≠ '#') (hz : ∀ x ∈ z, x ≠ '#')
    (e : u ++ ['#'] = a ++ (q :: z)) : False := by
  have : (u ++ ['#']).getLast? = some '#' := by simp
  rw [e] at this
  have hm := List.mem_of_getLast? (l := q :: z) (a := '#') (by
    rw [List.getLast?_append] at this
    cases hl : (q :: z).getLast? with
    | none => simp at hl
    | some x => rw [hl] at this; simpa using this)
  rcases List.mem_cons.1 hm with h | h
  · exact hq h.symm
  · exact hz _ h rfl

/-- C76. Nor is a workbook with a hash and nothing after it. -/
theorem C76_needs_fragment (jsonLoads : Str → Option Doc) (u : Str) (hu : '#' ∉ u) :
    parseXlref jsonLoads (u ++ ['#']) = .error .syntaxError := by
  unfold parseXlref
  rw [parse1_hash _ _ _ hu, if_pos rfl]
  simp only
  have hm : reEncase.match? (u ++ ['#']) = none := by
    rw [← Option.not_isSome_iff_eq_none, match_isSome_iff]
    rintro ⟨s', c', h⟩
    cases h with
    | seq h1 h => cases h with
      | seq h2 h => cases h with
        | seq h3 h => cases h with
          | seq h4 h => cases h with
            | seq h5 h => cases h with
              | eos he =>
                obtain ⟨rfl, ws, e1, _⟩ := run_star_cls h1
                cases h2 with
                | grp h2 =>
                  obtain ⟨rfl, q, e2, hq⟩ := run_cls h2
                  subst e2
                  cases h3 with
                  | grp h3 =>
                    obtain ⟨rfl, b, hb, e3, _⟩ := run_plus_cls h3
                    subst e3
                    generalize hc : (Caps.put _ "2" _ : Caps) = c at h4
                    have hcq : c "q" = some [q] := by
                      rw [← hc, put_other _ _ _ _ (by decide), put_same]
                      simp
                    cases h4 with
                    | backref hn hp =>
                      rw [hcq] at hn
                      simp at hn
                      subst hn
                      obtain ⟨w, rfl⟩ := (List.isPrefixOf_iff_prefix.1 hp)
                      simp at h5
                      obtain ⟨_, ws', e5, hws⟩ := run_star_cls h5
                      subst e5
                      have hs' : s' = [] ∨ s' = ['\n'] := by simpa [atEnd] using he
                      refine last_not_hash u (ws ++ q :: b) (ws' ++ s') q ?_ ?_ (by simpa using e1)
                      · rintro rfl; revert hq; decide
                      · intro x hx
                        have : isSpaceU x = true := by
                          rcases List.mem_append.1 hx with hx | hx
                          · exact hws x hx
                          · rcases hs' with rfl | rfl
                            · cases hx
                            · simp at hx; subst hx; decide
                        rintro rfl
                        revert this; decide
  rw [hm]

example (jl : Str → Option Doc) : parseXlref jl "book.xlsx#A1".toList =
    .ok ⟨some "book.xlsx".toList, ⟨none, some ⟨⟨['1'], ['A']⟩, none, none⟩, none, none, none, none⟩, "book.xlsx#A1".toList, none⟩ := by
  rfl

example : straight "“a”".toList = "\"a\"".toList := by decide

end Props
