import Verif.Lemmas.ParseEdge
set_option linter.unusedSimpArgs false
namespace Model
open Py Spec

abbrev MRes := Str × Caps

/-- The end of the reference regex: filters and `$`. -/
def tailF (s : Str) (c : Caps) : Option MRes :=
  (Re.opt reFilt).m s c (fun s c => Re.eos.m s c (fun s c => some (s, c)))

/-- The end of the reference regex: range, filters and `$`. -/
def tailR (s : Str) (c : Caps) : Option MRes := (Re.opt reRange).m s c tailF

/-- From the first edge on. -/
def tailE (s : Str) (c : Caps) : Option MRes := (Re.opt (reEdge stNames isMargin)).m s c tailR

private theorem seq6 {α : Type} (r1 r2 r3 r4 r5 r6 : Re) (s : Str) (c : Caps) (k : Str → Caps → Option α) :
    (Re.seqs [r1, r2, r3, r4, r5, r6]).m s c k = r1.m s c (fun s c => r2.m s c (fun s c =>
      r3.m s c (fun s c => r4.m s c (fun s c => r5.m s c (fun s c => r6.m s c k))))) := by
  simp only [Re.seqs, m_seq]

theorem match_eq (s : Str) :
    reXlref.match? s = (Re.star (.cls isSpaceU)).m s Caps.empty (fun s c => reSheet.m s c tailE) :=
  seq6 (α := MRes) (.star (.cls isSpaceU)) reSheet (Re.opt (reEdge stNames isMargin)) (Re.opt reRange)
    (Re.opt reFilt) .eos s Caps.empty (fun s c => some (s, c))

theorem filt_none {s : Str} {c : Caps} {k : Str → Caps → Option MRes} (h : ∀ x, s.head? = some x → x ≠ ':') :
    reFilt.m s c k = none := by
  cases s with
  | nil => rfl
  | cons x t => simp [reFilt, Re.seqs, h x rfl]

theorem tailF_stops : Stops tailF := by
  intro x t c h1 h2
  have : atEnd (x :: t) = false := by simp [atEnd, h2]
  simp [tailF, filt_none (s := x :: t) (by simpa using h1), this]

/-- Captures of the filters. -/
def filtCaps : Option (Str × Str) → Caps → Caps
  | none, c => c
  | some (_, js), c => c.put "js_filt" js

theorem js_head {x : Char} (h : x ∈ "{\"[".toList) : (x == '{' || x == '"' || x == '[') = true ∧ isSpaceU x = false ∧
    isAZi x = false ∧ isMarginDot x = false ∧ isExpChar x = false ∧ x ≠ ':' ∧ x ≠ '\n' := by
  have key : ∀ x ∈ "{\"[".toList, (x == '{' || x == '"' || x == '[') = true ∧ isSpaceU x = false ∧
    isAZi x = false ∧ isMarginDot x = false ∧ isExpChar x = false ∧ x ≠ ':' ∧ x ≠ '\n' := by decide
  exact key x h

theorem space_head {x : Char} (h : isSpaceU x = true) :
    isAZi x = false ∧ isMarginDot x = false ∧ isExpChar x = false ∧ x ≠ ':' := by
  have key : ∀ n ∈ [9, 10, 11, 12, 13, 28, 29, 30, 31, 32, 133, 160, 5760, 8192, 8193, 8194, 8195, 8196, 8197, 8198,
      8199, 8200, 8201, 8202, 8232, 8233, 8239, 8287, 12288], isAZi (Char.ofNat n) = false ∧
      isMarginDot (Char.ofNat n) = false ∧ isExpChar (Char.ofNat n) = false ∧ Char.ofNat n ≠ ':' := by decide
  have hx : x.toNat ∈ [9, 10, 11, 12, 13, 28, 29, 30, 31, 32, 133, 160, 5760, 8192, 8193, 8194, 8195, 8196, 8197, 8198,
      8199, 8200, 8201, 8202, 8232, 8233, 8239, 8287, 12288] := by
    simpa [isSpaceU] using h
  have := key _ hx
  rwa [Char.ofNat_toNat] at this

theorem filt_ok {f : Option (Str × Str)} {c : Caps} (h : FiltOk f) :
    tailF (filtText f) c = some ([], filtCaps f c) := by
  match f with
  | none => rfl
  | some (ws, js) =>
    obtain ⟨hws, x, t, rfl, hx⟩ := h
    obtain ⟨h1, h2, _⟩ := js_head hx
    have : reFilt.m (filtText (some (ws, x :: t))) c (fun s c => Re.eos.m s c (fun s c => some (s, c)))
        = some ([], filtCaps (some (ws, x :: t)) c) := by
      simp only [filtText, reFilt, Re.seqs, m_seq, List.cons_append, m_chr_cons, beq_self_eq_true, if_true]
      apply star_cls_max
      · exact hws
      · intro y hy; simp at hy; subst hy; exact h2
      · rw [m_grp]
        simp only [m_seq, m_cls_cons, h1, if_true]
        have := star_cls_max (α := MRes) (fun _ => true) t [] c
          (fun s' c' => (Re.m .eos s' (c'.put "js_filt" (List.take ((x :: t).length - s'.length) (x :: t))) (fun s c => some (s, c))))
          ([], c.put "js_filt" (x :: t)) (by simp) (by simp) (by simp [atEnd])
        simpa [filtCaps] using this
    simp only [tailF, m_opt, this, Option.some_or]

/-- Filters are not an edge, nor expansion moves. -/
theorem filt_rest {ws js : Str} (h : FiltOk (some (ws, js))) :
    ∃ y t, ws ++ js = y :: t ∧ isAZi y = false ∧ isMarginDot y = false ∧ isExpChar y = false ∧ y ≠ ':' ∧
      (y :: t) ≠ ['\n'] := by
  obtain ⟨hws, x, t, rfl, hx⟩ := h
  obtain ⟨_, h2, h3, h4, h5, h6, h7⟩ := js_head hx
  cases ws with
  | nil => exact ⟨x, t, rfl, h3, h4, h5, h6, by simp [h7]⟩
  | cons y ws =>
    obtain ⟨a, b, c, d⟩ := space_head (hws y (by simp))
    exact ⟨y, ws ++ x :: t, rfl, a, b, c, d, by simp⟩

theorem tailF_rest {ws js : Str} {c : Caps} (h : FiltOk (some (ws, js))) : tailF (ws ++ js) c = none := by
  obtain ⟨y, t, e, _, _, _, h4, h5⟩ := filt_rest h
  rw [e]
  have : atEnd (y :: t) = false := by simpa [atEnd] using h5
  simp [tailF, filt_none (s := y :: t) (by simpa using h4), this]

theorem exp_none {s : Str} {c : Caps} {k : Str → Caps → Option MRes}
    (h : ∀ x y t, s = x :: y :: t → x = ':' → isExpChar y = false) : reExp.m s c k = none := by
  match s with
  | [] => rfl
  | [x] => by_cases hx : x = ':' <;> simp [reExp, m_grp, m_plus, hx]
  | x :: y :: t =>
    by_cases hx : x = ':'
    · simp [reExp, m_grp, m_plus, hx, h x y t rfl hx]
    · simp [reExp, hx]

/-- Captures of the expansion moves. -/
def expCaps : Option Str → Caps → Caps
  | none, c => c
  | some x, c => c.put "exp_moves" x

theorem exp_char {x : Char} (h : x ∈ "LURDlurd?123456789".toList) : isExpChar x = true ∧ x ≠ '!' := by
  have key : ∀ x ∈ "LURDlurd?123456789".toList, isExpChar x = true ∧ x ≠ '!' := by decide
  exact key x h

theorem exp_filt_ok {ex : Option Str} {f : Option (Str × Str)} {c : Caps} (h : ExpOk ex) (hf : FiltOk f) :
    (Re.opt reExp).m (expText ex ++ filtText f) c tailF = some ([], filtCaps f (expCaps ex c)) := by
  rw [m_opt]
  match ex with
  | none =>
    have : reExp.m (filtText f) c tailF = none := by
      apply exp_none
      match f with
      | none => intro x y t e; simp [filtText] at e
      | some (ws, js) =>
        obtain ⟨y', t', e', _, _, h3, _⟩ := filt_rest hf
        intro x y t e _
        simp [filtText, e'] at e
        rw [← e.2.1]; exact h3
    simp only [expText, List.nil_append, this, Option.none_or]
    exact filt_ok hf
  | some x =>
    obtain ⟨hne, hx⟩ := h
    have : reExp.m (expText (some x) ++ filtText f) c tailF = some ([], filtCaps f (expCaps (some x) c)) := by
      simp only [expText, reExp, m_seq, List.cons_append, m_chr_cons, beq_self_eq_true, if_true]
      apply grp_of (c' := c) _ (filt_ok hf)
      intro k' hk'
      apply plus_cls_max _ _ _ _ _ _ hne (fun y hy => (exp_char (hx y hy)).1) _ hk'
      intro y hy
      match f with
      | none => simp [filtText] at hy
      | some (ws, js) => simp [filtText] at hy; subst hy; decide
    rw [this, Option.some_or]

/-- Captures of the second edge. -/
def ndCaps : Option EdgeText → Caps → Caps
  | none, c => c
  | some e, c => edgeCaps ndNames e c

/-- Captures of the range part. -/
def rangeCaps : Option (Option EdgeText × Option Str) → Caps → Caps
  | none, c => c
  | some (nd, ex), c => expCaps ex (ndCaps nd (c.put "colon" [':']))

theorem exp_edgeEnd (ex : Option Str) (f : Option (Str × Str)) : EdgeEnd (expText ex ++ filtText f) := by
  match ex, f with
  | some x, _ => exact .inr ⟨_, rfl⟩
  | none, none => exact .inl rfl
  | none, some (ws, js) => exact .inr ⟨_, rfl⟩

theorem range_edgeEnd (rg : Option (Option EdgeText × Option Str)) (f : Option (Str × Str)) :
    EdgeEnd (rangeText rg ++ filtText f) := by
  match rg, f with
  | some (nd, ex), _ => exact .inr ⟨_, rfl⟩
  | none, none => exact .inl rfl
  | none, some (ws, js) => exact .inr ⟨_, rfl⟩

theorem tailExp_stops : Stops (fun s c => (Re.opt reExp).m s c tailF) := by
  intro x t c h1 h2
  have : reExp.m (x :: t) c tailF = none := by simp [reExp, h1]
  simp only [m_opt, this, Option.none_or]
  exact tailF_stops x t c h1 h2

theorem range_ok {rg : Option (Option EdgeText × Option Str)} {f : Option (Str × Str)} {c : Caps}
    (hnd : ∀ e ex, rg = some (some e, ex) → e.Ok true) (hex : ∀ nd ex, rg = some (nd, ex) → ExpOk ex)
    (hf : FiltOk f) : tailR (rangeText rg ++ filtText f) c = some ([], filtCaps f (rangeCaps rg c)) := by
  match rg with
  | none =>
    have : reRange.m (filtText f) c tailF = none := by
      match f with
      | none => rfl
      | some (ws, js) =>
        obtain ⟨y, t, e, h1, h2, _, h4, _⟩ := filt_rest hf
        have hr : ∀ c, tailF (y :: t) c = none := fun c => by rw [← e]; exact tailF_rest hf
        have he : ∀ c, reExp.m (y :: t) c tailF = none := fun c => by simp [reExp, h4]
        have hd : ∀ c (k : Str → Caps → Option MRes), (reEdge ndNames isMarginDot).m (y :: t) c k = none :=
          fun c k => edge_none (by simp [h1, h2])
        simp only [filtText, List.cons_append, e, reRange, Re.seqs, m_seq, m_grp, m_chr_cons, beq_self_eq_true,
          if_true, m_opt, hd, he, hr, Option.none_or]
    simp only [rangeText, List.nil_append, tailR, m_opt, this, Option.none_or]
    exact filt_ok hf
  | some (nd, ex) =>
    have hx := hex nd ex rfl
    have : reRange.m (rangeText (some (nd, ex)) ++ filtText f) c tailF
        = some ([], filtCaps f (rangeCaps (some (nd, ex)) c)) := by
      simp only [rangeText, List.cons_append, List.append_assoc, reRange, Re.seqs, m_seq, m_grp, m_chr_cons,
        beq_self_eq_true, if_true]
      have ht : ∀ w : Str, List.take ((':' :: w).length - w.length) (':' :: w) = [':'] := by intro w; simp
      rw [ht]
      match nd with
      | none =>
        have hd : ∀ c (k : Str → Caps → Option MRes),
            (reEdge ndNames isMarginDot).m (expText ex ++ filtText f) c k = none := by
          intro c k
          apply edge_none
          rcases exp_edgeEnd ex f with h | ⟨t, h⟩ <;> rw [h]
          · simp
          · simp; decide
        simp only [optEdgeText, List.nil_append, m_opt (reEdge _ _), hd, Option.none_or]
        exact exp_filt_ok hx hf
      | some e =>
        rw [m_opt]
        have := edge_ok (n := ndNames) (dot := true) (p := isMarginDot) rfl (c := c.put "colon" [':'])
          (hnd e ex rfl) (exp_edgeEnd ex f) tailExp_stops (exp_filt_ok hx hf)
        simp only [optEdgeText]
        rw [this, Option.some_or]
        rfl
    rw [tailR, m_opt, this, Option.some_or]

/-- Captures of the first edge. -/
def stCaps : Option EdgeText → Caps → Caps
  | none, c => c
  | some e, c => edgeCaps stNames e c

theorem tailR_stops : Stops tailR := by
  intro x t c h1 h2
  have : reRange.m (x :: t) c tailF = none := by simp [reRange, Re.seqs, m_grp, h1]
  simp only [tailR, m_opt, this, Option.none_or]
  exact tailF_stops x t c h1 h2

theorem st_ok {st : Option EdgeText} {rg : Option (Option EdgeText × Option Str)} {f : Option (Str × Str)} {c : Caps}
    (hst : ∀ e, st = some e → e.Ok false)
    (hnd : ∀ e ex, rg = some (some e, ex) → e.Ok true) (hex : ∀ nd ex, rg = some (nd, ex) → ExpOk ex)
    (hf : FiltOk f) :
    tailE (optEdgeText st ++ (rangeText rg ++ filtText f)) c = some ([], filtCaps f (rangeCaps rg (stCaps st c))) := by
  rw [tailE, m_opt]
  match st with
  | none =>
    have : (reEdge stNames isMargin).m (rangeText rg ++ filtText f) c tailR = none := by
      apply edge_none
      rcases range_edgeEnd rg f with h | ⟨t, h⟩ <;> rw [h]
      · simp
      · simp; decide
    simp only [optEdgeText, List.nil_append, this, Option.none_or]
    exact range_ok hnd hex hf
  | some e =>
    have := edge_ok (n := stNames) (dot := false) (p := isMargin) rfl (c := c) (hst e rfl) (range_edgeEnd rg f)
      tailR_stops (range_ok hnd hex hf)
    simp only [optEdgeText]
    rw [this, Option.some_or]
    rfl

/-- Without a `!` there is no sheet. -/
theorem sheet_skip {s : Str} {c : Caps} {k : Str → Caps → Option MRes} (h : '!' ∉ s) : reSheet.m s c k = k s c := by
  have hb : ∀ t, t <:+ s → ∀ c k, (Re.chr '!').m (α := MRes) t c k = none := by
    intro t ht c k
    cases t with
    | nil => rfl
    | cons x t =>
      have : x ≠ '!' := by
        rintro rfl; exact h (ht.subset (by simp))
      simp [this]
  have h1 : Re.m (.grp "sh_name" (.plus (.cls (fun c => c != '!')))) s c
      (fun s' c' => (Re.chr '!').m s' c' k) = none := by
    rw [m_grp]
    apply plus_cls_none
    intro t2 ht
    exact hb t2 (ht.trans (List.tail_suffix s)) _ _
  simp only [reSheet, m_opt, m_seq, h1, hb s (List.suffix_refl _), Option.none_or]

def sheetCaps : Option Str → Caps → Caps
  | none, c => c
  | some [], c => c
  | some s, c => c.put "sh_name" s

theorem sheet_ok {sh : Option Str} {u : Str} {c : Caps} {k : Str → Caps → Option MRes} {r : MRes}
    (h : SheetOk sh) (hb : sh = none → '!' ∉ u) (hk : k u (sheetCaps sh c) = some r) :
    reSheet.m (sheetText sh ++ u) c k = some r := by
  match sh with
  | none => rw [sheetText, List.nil_append, sheet_skip (hb rfl)]; exact hk
  | some [] =>
    have hk' : k u c = some r := hk
    have hg : ∀ k : Str → Caps → Option MRes, Re.m (.grp "sh_name" (.plus (.cls (fun c => c != '!')))) ('!' :: u) c k = none := by
      intro k; rw [m_grp, m_plus, m_cls_cons]; rfl
    simp only [sheetText, List.nil_append, List.cons_append, reSheet, m_opt, m_seq, hg, Option.none_or, m_chr_cons,
      beq_self_eq_true, if_true, hk', Option.some_or]
  | some (x :: s) =>
    obtain ⟨h1, h2⟩ := h
    have hg : Re.m (.grp "sh_name" (.plus (.cls (fun c => c != '!')))) ((x :: s) ++ ('!' :: u)) c
        (fun s' c' => (Re.chr '!').m s' c' k) = some r := by
      apply grp_of (c' := c)
      · intro k' hk'
        apply plus_cls_max _ _ _ _ _ _ (by simp) _ _ hk'
        · intro y hy
          have : y ≠ '!' := by rintro rfl; exact h1 hy
          simpa using this
        · intro y hy; simp at hy; subst hy; rfl
      · simp only [m_chr_cons, beq_self_eq_true, if_true]; exact hk
    have e : sheetText (some (x :: s)) ++ u = (x :: s) ++ ('!' :: u) := by simp [sheetText]
    rw [e]
    simp only [reSheet, m_opt, m_seq, hg, Option.some_or]

theorem num_bang {t : Str} (h : IsNum t) : '!' ∉ t := by
  obtain ⟨d, t, rfl, h1, _, h3⟩ := h
  intro hm
  rcases List.mem_cons.1 hm with e | hm
  · subst e; revert h1; decide
  · have := h3 _ hm; revert this; decide

theorem special_bang {dot : Bool} {t : Str} (h : IsSpecial dot t) : '!' ∉ t := by
  rcases h with rfl | rfl | ⟨_, rfl⟩ <;> decide

theorem rcnum_bang {t : Str} (h : IsRCNum t) : '!' ∉ t := by
  rcases h with h | ⟨t, rfl, h⟩ | h
  · exact num_bang h
  · simp [num_bang h]
  · exact special_bang h

theorem mov_bang {mv : Option (Str × Option Char)} (h : MovOk mv) : '!' ∉ movText mv := by
  match mv with
  | none => simp [movText]
  | some (m, x) =>
    obtain ⟨hm, hx⟩ := h
    have : '!' ∉ m := by
      rcases mov_mem hm with ⟨a, rfl, ha⟩ | ⟨a, b, rfl, hab⟩
      · simp; rintro rfl; revert ha; decide
      · have hc := allMoves_pairs hab
        simp only [List.mem_cons, List.not_mem_nil, or_false, not_or]
        constructor <;> rintro rfl
        · simp [show upperChar '!' = '!' by decide] at hc
        · simp [show upperChar '!' = '!' by decide] at hc
    rcases hx with rfl | rfl | rfl <;> simp [movText, this]

theorem edge_bang {dot : Bool} {e : EdgeText} (h : e.Ok dot) : '!' ∉ e.text := by
  obtain ⟨hc, hm⟩ := h
  have := mov_bang hm
  match hcell : e.cell with
  | .a1 col row =>
    rw [hcell] at hc
    obtain ⟨h1, h2⟩ := hc
    have hcol : '!' ∉ col := by
      rcases h1 with ⟨_, h1⟩ | h1
      · intro hb; exact (isLetter_AZ (h1 _ hb)).2 rfl
      · exact special_bang h1
    have hrow : '!' ∉ row := by
      rcases h2 with h2 | h2
      · exact num_bang h2
      · exact special_bang h2
    simp [EdgeText.text, hcell, CellText.text, hcol, hrow, this]
  | .rc R row C col =>
    rw [hcell] at hc
    obtain ⟨hR, hC, h1, h2⟩ := hc
    have h1 := rcnum_bang h1
    have h2 := rcnum_bang h2
    rcases hR with rfl | rfl <;> rcases hC with rfl | rfl <;>
      simp [EdgeText.text, hcell, CellText.text, h1, h2, this]

theorem space_bang {ws : Str} (h : Spaces ws) : '!' ∉ ws := by
  intro hm; have := h _ hm; revert this; decide

/-- All captures of a well-written reference. -/
def refCaps (r : RefText) : Caps :=
  filtCaps r.filt (rangeCaps r.range (stCaps r.st (sheetCaps r.sheet Caps.empty)))

theorem edge_nospace {e : EdgeText} {dot : Bool} (h : e.Ok dot) : ∃ x t, e.text = x :: t ∧ isSpaceU x = false := by
  obtain ⟨hc, hm⟩ := h
  have haz : ∀ x, isAZi x = true → isSpaceU x = false := by
    intro x hx
    cases hs : isSpaceU x with
    | false => rfl
    | true => rw [(space_head hs).1] at hx; simp at hx
  match hcell : e.cell with
  | .a1 col row =>
    rw [hcell] at hc
    obtain ⟨h1, _⟩ := hc
    rcases h1 with ⟨hne, h1⟩ | h1
    · cases col with
      | nil => exact absurd rfl hne
      | cons x t => exact ⟨x, _, by simp [EdgeText.text, hcell, CellText.text]; rfl, haz _ (isLetter_AZ (h1 x (by simp))).1⟩
    · obtain ⟨x, rfl, _, _, _, _, _, h6, _⟩ := special_ok rfl h1
      exact ⟨x, _, by simp [EdgeText.text, hcell, CellText.text]; rfl, h6⟩
  | .rc R row C col =>
    rw [hcell] at hc
    refine ⟨R, _, by simp [EdgeText.text, hcell, CellText.text]; rfl, ?_⟩
    rcases hc.1 with rfl | rfl <;> decide

/-- A well-written reference matches as a whole, with these captures. -/
theorem ref_match {r : RefText} (h : r.Ok) : reXlref.match? r.text = some ([], refCaps r) := by
  rw [match_eq, RefText.text]
  apply star_cls_max _ _ _ _ _ _ h.lead
  · intro x hx
    have hcol : isSpaceU ':' = false := by decide
    have hR : ∀ x, (rangeText r.range ++ filtText r.filt).head? = some x → isSpaceU x = false := by
      intro x hx
      rcases range_edgeEnd r.range r.filt with e | ⟨t, e⟩ <;> rw [e] at hx
      · simp at hx
      · simp at hx; subst hx; exact hcol
    have hE : ∀ x, (optEdgeText r.st ++ (rangeText r.range ++ filtText r.filt)).head? = some x → isSpaceU x = false := by
      intro x hx
      match hst : r.st with
      | none => rw [hst] at hx; exact hR x (by simpa [optEdgeText] using hx)
      | some e =>
        obtain ⟨y, t, e1, e2⟩ := edge_nospace (h.st e hst)
        rw [hst] at hx
        simp [optEdgeText, e1] at hx
        subst hx; exact e2
    have hs := h.sheet
    match hsh : r.sheet with
    | none => rw [hsh] at hx; exact hE x (by simpa [sheetText] using hx)
    | some [] => rw [hsh] at hx; simp [sheetText] at hx; subst hx; decide
    | some (y :: s) =>
      rw [hsh] at hx hs
      simp [sheetText] at hx
      subst hx
      exact hs.2 y rfl
  · apply sheet_ok h.sheet
    · intro hn
      have hst : '!' ∉ optEdgeText r.st := by
        match hst : r.st with
        | none => simp [optEdgeText]
        | some e => exact edge_bang (h.st e hst)
      have hrg : '!' ∉ rangeText r.range := by
        match hrg : r.range with
        | none => simp [rangeText]
        | some (nd, ex) =>
          have h1 : '!' ∉ optEdgeText nd := by
            match nd, hrg with
            | none, _ => simp [optEdgeText]
            | some e, hrg => exact edge_bang (h.nd e ex hrg)
          have h2 : '!' ∉ expText ex := by
            have := h.exp nd ex hrg
            match ex, this with
            | none, _ => simp [expText]
            | some x, hx => simp [expText]; intro hb; exact (exp_char (hx.2 _ hb)).2 rfl
          simp [rangeText, h1, h2]
      have hf : '!' ∉ filtText r.filt := by
        match hf : r.filt with
        | none => simp [filtText]
        | some (ws, js) =>
          have h1 := h.bang hn ws js hf
          have h2 := h.filt
          rw [hf] at h2
          simp [filtText, h1, space_bang h2.1]
      simp [hst, hrg, hf]
    · exact st_ok h.st h.nd h.exp h.filt

end Model
