import Verif.Lemmas.ParseRef
import Verif.Props.CallSpec
/-
C41, C43: reference fragments.
-/
set_option linter.unusedSimpArgs false
namespace Props
open Py Model Spec

/-- The edge meant by its text: everything in upper case. -/
def edgeOf (e : EdgeText) : TEdge :=
  ⟨⟨upper e.cell.row, upper e.cell.col⟩, e.mov.map (fun p => upper p.1), e.mov.bind (fun p => p.2.map (fun x => [x]))⟩

/-- The top-left and the bottom-right corner of the used part of a sheet. -/
def topLeft : TEdge := ⟨⟨"^".toList, "^".toList⟩, none, none⟩
def bottomRight : TEdge := ⟨⟨"_".toList, "_".toList⟩, none, none⟩

/-- The two edges meant, with the documented defaults. -/
def edgesOf (st : Option EdgeText) (range : Option (Option EdgeText × Option Str)) : Option TEdge × Option TEdge :=
  match st, range with
  | some a, none => (some (edgeOf a), none)
  | some a, some (some b, _) => (some (edgeOf a), some (edgeOf b))
  | some a, some (none, _) => (some (edgeOf a), some bottomRight)
  | none, some (some b, _) => (some topLeft, some (edgeOf b))
  | none, some (none, _) => (some topLeft, some bottomRight)
  | none, none => (some topLeft, some bottomRight)

private theorem caps_mov (n : EdgeNames) (mv : Option (Str × Option Char)) (c : Caps)
    (h : n.mov ≠ n.mod) (hm : c n.mov = none) (hd : c n.mod = none) :
    movCaps n mv c n.mov = mv.map (·.1) ∧ movCaps n mv c n.mod = mv.bind (fun p => p.2.map (fun x => [x])) ∧
    ∀ x, x ≠ n.mov → x ≠ n.mod → movCaps n mv c x = c x := by
  match mv with
  | none => exact ⟨hm, hd, fun _ _ _ => rfl⟩
  | some (m, none) =>
    refine ⟨by simp [movCaps], ?_, ?_⟩
    · simp [movCaps, put_other _ _ _ _ (Ne.symm h), hd]
    · intro x h1 _; simp [movCaps, put_other _ _ _ _ h1]
  | some (m, some y) =>
    refine ⟨by simp [movCaps, put_other _ _ _ _ h], by simp [movCaps], ?_⟩
    intro x h1 h2; simp [movCaps, put_other _ _ _ _ h1, put_other _ _ _ _ h2]

private theorem st_parse (e : EdgeText) (c : Caps) (d : Option TEdge)
    (hc : ∀ x, x ∈ ["st_col", "st_row", "st_row2", "st_col2", "st_mov", "st_mod"] → c x = none) :
    parseEdge (edgeCaps stNames e c) stNames d = some (edgeOf e) := by
  simp only [List.mem_cons, List.not_mem_nil, or_false, forall_eq_or_imp, forall_eq] at hc
  obtain ⟨h1, h2, h3, h4, h5, h6⟩ := hc
  have hm := caps_mov stNames e.mov (cellCaps stNames e.cell c) (by decide)
    (by cases e.cell <;> simp [cellCaps, stNames, Caps.put, h5])
    (by cases e.cell <;> simp [cellCaps, stNames, Caps.put, h6])
  obtain ⟨m1, m2, m3⟩ := hm
  have c1 := m3 "st_col" (by decide) (by decide)
  have c2 := m3 "st_row" (by decide) (by decide)
  have c3 := m3 "st_row2" (by decide) (by decide)
  have c4 := m3 "st_col2" (by decide) (by decide)
  simp only [stNames] at m1 m2 c1 c2 c3 c4
  simp only [parseEdge, edgeCaps, stNames, m1, m2, c1, c2, c3, c4]
  cases hcell : e.cell <;>
    simp [cellCaps, Caps.put, h1, h2, h3, h4, edgeNew, edgeOf, hcell, CellText.row, CellText.col, Option.map_map, Function.comp_def]

private theorem nd_parse (e : EdgeText) (c : Caps) (d : Option TEdge)
    (hc : ∀ x, x ∈ ["nd_col", "nd_row", "nd_row2", "nd_col2", "nd_mov", "nd_mod"] → c x = none) :
    parseEdge (edgeCaps ndNames e c) ndNames d = some (edgeOf e) := by
  simp only [List.mem_cons, List.not_mem_nil, or_false, forall_eq_or_imp, forall_eq] at hc
  obtain ⟨h1, h2, h3, h4, h5, h6⟩ := hc
  have hm := caps_mov ndNames e.mov (cellCaps ndNames e.cell c) (by decide)
    (by cases e.cell <;> simp [cellCaps, ndNames, Caps.put, h5])
    (by cases e.cell <;> simp [cellCaps, ndNames, Caps.put, h6])
  obtain ⟨m1, m2, m3⟩ := hm
  have c1 := m3 "nd_col" (by decide) (by decide)
  have c2 := m3 "nd_row" (by decide) (by decide)
  have c3 := m3 "nd_row2" (by decide) (by decide)
  have c4 := m3 "nd_col2" (by decide) (by decide)
  simp only [ndNames] at m1 m2 c1 c2 c3 c4
  simp only [parseEdge, edgeCaps, ndNames, m1, m2, c1, c2, c3, c4]
  cases hcell : e.cell <;>
    simp [cellCaps, Caps.put, h1, h2, h3, h4, edgeNew, edgeOf, hcell, CellText.row, CellText.col, Option.map_map, Function.comp_def]

private theorem edgeCaps_other (n : EdgeNames) (e : EdgeText) (c : Caps) (x : String)
    (h : x ∉ [n.col, n.row, n.row2, n.col2, n.mov, n.mod]) : edgeCaps n e c x = c x := by
  simp only [List.mem_cons, List.not_mem_nil, or_false, not_or] at h
  obtain ⟨h1, h2, h3, h4, h5, h6⟩ := h
  have : cellCaps n e.cell c x = c x := by
    cases e.cell <;> simp [cellCaps, Caps.put, h1, h2, h3, h4]
  rw [← this, edgeCaps]
  match e.mov with
  | none => rfl
  | some (m, none) => simp [movCaps, Caps.put, h5]
  | some (m, some y) => simp [movCaps, Caps.put, h5, h6]

private theorem filtCaps_other (f : Option (Str × Str)) (c : Caps) (x : String) (h : x ≠ "js_filt") :
    filtCaps f c x = c x := by
  match f with
  | none => rfl
  | some (ws, js) => simp [filtCaps, Caps.put, h]

private theorem expCaps_other (f : Option Str) (c : Caps) (x : String) (h : x ≠ "exp_moves") :
    expCaps f c x = c x := by
  match f with
  | none => rfl
  | some t => simp [expCaps, Caps.put, h]

private theorem sheetCaps_other (f : Option Str) (c : Caps) (x : String) (h : x ≠ "sh_name") :
    sheetCaps f c x = c x := by
  match f with
  | none => rfl
  | some [] => rfl
  | some (y :: t) => simp [sheetCaps, Caps.put, h]

private theorem stCaps_other (st : Option EdgeText) (c : Caps) (x : String)
    (h : x ∉ ["st_col", "st_row", "st_row2", "st_col2", "st_mov", "st_mod"]) : stCaps st c x = c x := by
  match st with
  | none => rfl
  | some e => exact edgeCaps_other stNames e c x h

private theorem ndCaps_other (st : Option EdgeText) (c : Caps) (x : String)
    (h : x ∉ ["nd_col", "nd_row", "nd_row2", "nd_col2", "nd_mov", "nd_mod"]) : ndCaps st c x = c x := by
  match st with
  | none => rfl
  | some e => exact edgeCaps_other ndNames e c x h

private theorem parseEdge_congr {c c' : Caps} {n : EdgeNames} {d : Option TEdge}
    (h : ∀ x ∈ [n.col, n.row, n.row2, n.col2, n.mov, n.mod], c x = c' x) : parseEdge c n d = parseEdge c' n d := by
  simp only [List.mem_cons, List.not_mem_nil, or_false, forall_eq_or_imp, forall_eq] at h
  obtain ⟨h1, h2, h3, h4, h5, h6⟩ := h
  simp only [parseEdge, h1, h2, h3, h4, h5, h6]

private theorem rangeCaps_other (rg : Option (Option EdgeText × Option Str)) (c : Caps) (x : String)
    (h : x ∉ ["nd_col", "nd_row", "nd_row2", "nd_col2", "nd_mov", "nd_mod", "exp_moves", "colon"]) :
    rangeCaps rg c x = c x := by
  match rg with
  | none => rfl
  | some (nd, ex) =>
    have h1 : x ∉ ["nd_col", "nd_row", "nd_row2", "nd_col2", "nd_mov", "nd_mod"] := by
      intro hm; apply h; simp at hm ⊢; rcases hm with e | e | e | e | e | e <;> simp [e]
    have h2 : x ≠ "exp_moves" := by intro hm; apply h; simp [hm]
    have h3 : x ≠ "colon" := by intro hm; apply h; simp [hm]
    simp only [rangeCaps]
    rw [expCaps_other _ _ _ h2, ndCaps_other _ _ _ h1, put_other _ _ _ _ h3]

/-- The groups of a well-written reference. -/
theorem groups (r : RefText) :
    refCaps r "sh_name" = r.sheetName ∧
    refCaps r "exp_moves" = r.range.bind (·.2) ∧
    refCaps r "js_filt" = r.filt.map (·.2) ∧
    fragmentEdges (refCaps r) = edgesOf r.st r.range := by
  have hsheet : sheetCaps r.sheet Caps.empty "sh_name" = r.sheetName := by
    unfold RefText.sheetName
    match r.sheet with
    | none => rfl
    | some [] => rfl
    | some (y :: t) => simp [sheetCaps]
  have hs0 : ∀ x, x ≠ "sh_name" → sheetCaps r.sheet Caps.empty x = none := by
    intro x hx; rw [sheetCaps_other _ _ _ hx]; rfl
  have hst0 : ∀ x, x ≠ "sh_name" → x ∉ ["st_col", "st_row", "st_row2", "st_col2", "st_mov", "st_mod"] →
      stCaps r.st (sheetCaps r.sheet Caps.empty) x = none := by
    intro x h1 h2; rw [stCaps_other _ _ _ h2, hs0 x h1]
  have hcolon : refCaps r "colon" = r.range.map (fun _ => [':']) := by
    unfold refCaps
    rw [filtCaps_other _ _ _ (by decide)]
    match r.range with
    | none => exact hst0 _ (by decide) (by decide)
    | some (nd, ex) =>
      simp only [rangeCaps]
      rw [expCaps_other _ _ _ (by decide), ndCaps_other _ _ _ (by decide)]; simp
  have hst : ∀ d, parseEdge (refCaps r) stNames d = (r.st.map edgeOf).or d := by
    intro d
    rw [parseEdge_congr (c' := stCaps r.st (sheetCaps r.sheet Caps.empty))]
    · match r.st with
      | none =>
        have h1 := hs0 "st_col" (by decide)
        have h2 := hs0 "st_row" (by decide)
        have h3 := hs0 "st_row2" (by decide)
        have h4 := hs0 "st_col2" (by decide)
        have h5 := hs0 "st_mov" (by decide)
        have h6 := hs0 "st_mod" (by decide)
        simp [stCaps, parseEdge, stNames, h1, h2, h3, h4, h5, h6, edgeNew]
      | some e =>
        simp only [stCaps, Option.map_some, Option.some_or]
        apply st_parse
        intro x hx
        apply hs0
        rintro rfl; revert hx; decide
    · intro x hx
      have hx' : x ∈ ["st_col", "st_row", "st_row2", "st_col2", "st_mov", "st_mod"] := hx
      unfold refCaps
      rw [filtCaps_other _ _ _ (by rintro rfl; revert hx'; decide), rangeCaps_other]
      intro hm
      simp at hx' hm
      rcases hx' with rfl | rfl | rfl | rfl | rfl | rfl <;> simp at hm
  have hnd : ∀ d, parseEdge (refCaps r) ndNames d = ((r.range.bind (·.1)).map edgeOf).or d := by
    intro d
    have hfilt : ∀ x ∈ ["nd_col", "nd_row", "nd_row2", "nd_col2", "nd_mov", "nd_mod"], x ≠ "js_filt" ∧
        x ≠ "exp_moves" ∧ x ≠ "sh_name" ∧ x ≠ "colon" ∧
        x ∉ ["st_col", "st_row", "st_row2", "st_col2", "st_mov", "st_mod"] := by decide
    have h0 : ∀ x ∈ ["nd_col", "nd_row", "nd_row2", "nd_col2", "nd_mov", "nd_mod"],
        stCaps r.st (sheetCaps r.sheet Caps.empty) x = none := by
      intro x hx
      obtain ⟨_, _, a, _, b⟩ := hfilt x hx
      exact hst0 x a b
    match hrg : r.range with
    | none =>
      rw [parseEdge_congr (c' := Caps.empty)]
      · rfl
      · intro x hx
        unfold refCaps
        rw [filtCaps_other _ _ _ (hfilt x hx).1, hrg]
        exact h0 x hx
    | some (nd, ex) =>
      rw [parseEdge_congr (c' := ndCaps nd ((stCaps r.st (sheetCaps r.sheet Caps.empty)).put "colon" [':']))]
      · have h1 : ∀ x ∈ ["nd_col", "nd_row", "nd_row2", "nd_col2", "nd_mov", "nd_mod"],
            ((stCaps r.st (sheetCaps r.sheet Caps.empty)).put "colon" [':']) x = none := by
          intro x hx
          rw [put_other _ _ _ _ (hfilt x hx).2.2.2.1, h0 x hx]
        match nd with
        | none =>
          have g := h1
          simp only [List.mem_cons, List.not_mem_nil, or_false, forall_eq_or_imp, forall_eq] at g
          simp [ndCaps, parseEdge, ndNames, g, edgeNew]
        | some e =>
          simp only [ndCaps, Option.bind_some, Option.map_some, Option.some_or]
          exact nd_parse e _ d h1
      · intro x hx
        unfold refCaps
        rw [filtCaps_other _ _ _ (hfilt x hx).1, hrg]
        simp only [rangeCaps]
        rw [expCaps_other _ _ _ (hfilt x hx).2.1]
  refine ⟨?_, ?_, ?_, ?_⟩
  · unfold refCaps
    rw [filtCaps_other _ _ _ (by decide), rangeCaps_other _ _ _ (by decide), stCaps_other _ _ _ (by decide), hsheet]
  · unfold refCaps
    rw [filtCaps_other _ _ _ (by decide)]
    match r.range with
    | none => exact hst0 _ (by decide) (by decide)
    | some (nd, none) =>
      simp only [rangeCaps, expCaps]
      rw [ndCaps_other _ _ _ (by decide), put_other _ _ _ _ (by decide), hst0 _ (by decide) (by decide)]; rfl
    | some (nd, some x) => simp [rangeCaps, expCaps]
  · unfold refCaps
    match r.filt with
    | none =>
      simp only [filtCaps]
      rw [rangeCaps_other _ _ _ (by decide), hst0 _ (by decide) (by decide)]; rfl
    | some (ws, js) => simp [filtCaps]
  · simp only [fragmentEdges, hcolon, hst, hnd]
    match r.st, r.range with
    | none, none => simp [edgesOf]; exact ⟨rfl, rfl⟩
    | none, some (none, ex) => simp [edgesOf]; exact ⟨rfl, rfl⟩
    | none, some (some b, ex) => simp [edgesOf]; rfl
    | some a, none => simp [edgesOf]
    | some a, some (none, ex) => simp [edgesOf]; rfl
    | some a, some (some b, ex) => simp [edgesOf]

private theorem filters_ok {jl : Str → Option Doc} {js : Str} {d : Doc} {o : Option (List (Str × Doc))}
    {cs : Option (Str × List Doc × List (Str × Doc))} (hd : jl js = some d) (h : FilterForm d o cs) :
    parseFilters jl (some js) = .ok (o, cs.map (fun p => ⟨p.1, p.2.1, p.2.2⟩)) := by
  unfold parseFilters
  simp only [hd]
  cases h with
  | emptyStr => rfl
  | emptyList => rfl
  | str s f a k hs hc =>
    have : (Doc.str s).truthy = true := by simp [Doc.truthy, hs]
    simp [this, (C44_accepted_iff _ _ _ _).2 hc, Except.map]
  | list l f a k hs hc =>
    have : (Doc.list l).truthy = true := by simp [Doc.truthy, hs]
    simp [this, (C44_accepted_iff _ _ _ _).2 hc, Except.map]
  | onlyOpts kvs o hk ho =>
    have : ddel kvs "opts".toList = [] := by
      unfold ddel
      rw [List.filter_eq_nil_iff]
      intro p hp; simp [hk p hp]
    have this' : ddel kvs ['o', 'p', 't', 's'] = [] := this
    generalize hx : dget kvs "opts".toList = x at ho
    have hx' : dget kvs ['o', 'p', 't', 's'] = x := hx
    cases ho <;> simp [this', hx', Doc.truthy]
  | call kvs o f a k hk ho hc =>
    have ht : (Doc.dict (ddel kvs "opts".toList)).truthy = true := by
      obtain ⟨p, hp, hne⟩ := hk
      have : p ∈ ddel kvs "opts".toList := by simp [ddel, hp]; simpa using hne
      simp only [Doc.truthy]
      cases hl : ddel kvs "opts".toList with
      | nil => rw [hl] at this; simp at this
      | cons => rfl
    have hcs := (C44_accepted_iff _ _ _ _).2 hc
    have e : kvs.filter (fun p => p.1 ≠ "opts".toList) = ddel kvs "opts".toList := rfl
    rw [e] at hcs
    generalize hx : dget kvs "opts".toList = x at ho
    have hx' : dget kvs ['o', 'p', 't', 's'] = x := hx
    have ht' : (Doc.dict (ddel kvs ['o', 'p', 't', 's'])).truthy = true := ht
    have hcs' : parseCallSpec (.dict (ddel kvs ['o', 'p', 't', 's'])) = .ok ⟨f, a, k⟩ := hcs
    cases ho <;> simp [ht', hcs', hx', Except.map]

/-- C41. A well-written reference without filters parses to exactly its fields, upper-cased. -/
theorem C41_round_trip (jsonLoads : Str → Option Doc) (r : RefText) (h : r.Ok) (hf : r.filt = none) :
    parseFragment jsonLoads r.text =
      .ok ⟨r.sheetName, (edgesOf r.st r.range).1, (edgesOf r.st r.range).2, r.range.bind (·.2), none, none⟩ := by
  obtain ⟨h1, h2, h3, h4⟩ := groups r
  rw [parseFragment, ref_match h]
  simp only [h1, h2, h3, h4, hf, Option.map_none, parseFilters]

/-- C41. With filters, if they are JSON in one of the documented forms, the options and the call are the
ones written. -/
theorem C41_round_trip_filters (jsonLoads : Str → Option Doc) (r : RefText) (h : r.Ok) (ws js : Str)
    (hf : r.filt = some (ws, js)) (d : Doc) (hd : jsonLoads js = some d) (o : Option (List (Str × Doc)))
    (cs : Option (Str × List Doc × List (Str × Doc))) (hform : FilterForm d o cs) :
    parseFragment jsonLoads r.text =
      .ok ⟨r.sheetName, (edgesOf r.st r.range).1, (edgesOf r.st r.range).2, r.range.bind (·.2), o,
        cs.map (fun p => ⟨p.1, p.2.1, p.2.2⟩)⟩ := by
  obtain ⟨h1, h2, h3, h4⟩ := groups r
  rw [parseFragment, ref_match h]
  simp only [h1, h2, h3, h4, hf, Option.map_some, filters_ok hd hform]

theorem fragment_of_filters (jsonLoads : Str → Option Doc) (r : RefText) (h : r.Ok) :
    parseFragment jsonLoads r.text = match parseFilters jsonLoads (r.filt.map (·.2)) with
      | .error e => .error e
      | .ok (o, cs) => .ok ⟨r.sheetName, (edgesOf r.st r.range).1, (edgesOf r.st r.range).2, r.range.bind (·.2), o, cs⟩ := by
  obtain ⟨h1, h2, h3, h4⟩ := groups r
  rw [parseFragment, ref_match h]
  simp only [h1, h2, h3, h4]
  rfl

/-- C41. Filters that are not JSON raise `ValueError`. -/
theorem C41_bad_json (jsonLoads : Str → Option Doc) (r : RefText) (h : r.Ok) (ws js : Str)
    (hf : r.filt = some (ws, js)) (hd : jsonLoads js = none) :
    parseFragment jsonLoads r.text = .error .valueError := by
  obtain ⟨h1, h2, h3, h4⟩ := groups r
  rw [parseFragment, ref_match h]
  simp only [h3, hf, Option.map_some, parseFilters, hd]

/-- ` Sheet1!a1(dR+):R-3C.(U):l1u?:{"opts":{}, "func": "foo"}` -/
def sampleRef : RefText where
  lead := " ".toList
  sheet := some "Sheet1".toList
  st := some ⟨.a1 "a".toList "10".toList, some ("dR".toList, some '+')⟩
  range := some (some ⟨.rc 'R' "-3".toList 'c' ".".toList, some ("U".toList, none)⟩, some "l1u?".toList)
  filt := some (" ".toList, "{\"opts\":{}, \"func\": \"foo!\"}".toList)

example : sampleRef.text = " Sheet1!a10(dR+):R-3c.(U):l1u?: {\"opts\":{}, \"func\": \"foo!\"}".toList := by decide

theorem sampleRef_ok : sampleRef.Ok where
  lead := by unfold Spaces; decide
  sheet := by refine ⟨by decide, ?_⟩; intro x hx; cases hx; decide
  st := by
    intro e he; cases he
    exact ⟨⟨.inl ⟨by decide, by decide⟩, .inl ⟨'1', ['0'], rfl, by decide, by decide, by decide⟩⟩, by decide, .inr (.inl rfl)⟩
  nd := by
    intro e ex he; cases he
    exact ⟨⟨.inl rfl, .inr rfl, .inr (.inl ⟨['3'], rfl, '3', [], rfl, by decide, by decide, by decide⟩),
      .inr (.inr (.inr (.inr ⟨rfl, rfl⟩)))⟩, by decide, .inl rfl⟩
  exp := by intro nd ex he; cases he; exact ⟨by decide, by decide⟩
  filt := ⟨by unfold Spaces; decide, '{', _, rfl, by decide⟩
  bang := by intro h; cases h

example (jl : Str → Option Doc)
    (h : jl "{\"opts\":{}, \"func\": \"foo!\"}".toList = some (.dict [("opts".toList, .dict []), ("func".toList, .str "foo!".toList)])) :
    parseFragment jl sampleRef.text = .ok ⟨some "Sheet1".toList,
      some ⟨⟨"10".toList, "A".toList⟩, some "DR".toList, some "+".toList⟩,
      some ⟨⟨"-3".toList, ".".toList⟩, some "U".toList, none⟩, some "l1u?".toList, some [],
      some ⟨"foo!".toList, [], []⟩⟩ := by
  refine C41_round_trip_filters jl sampleRef sampleRef_ok _ _ rfl _ h _ (some ("foo!".toList, [], [])) ?_
  refine .call _ _ _ _ _ ⟨("func".toList, .str "foo!".toList), by simp, by decide⟩ (.dict []) ?_
  refine .object _ _ _ _ ?_ rfl ?_ (fun _ => rfl) ?_ (fun _ => rfl)
  · intro p hp
    have : p = ("func".toList, Doc.str "foo!".toList) := by
      simpa [List.filter] using hp
    left; rw [this]
  · intro d hd; exact absurd hd (by simp [List.filter, dget])
  · intro d hd; exact absurd hd (by simp [List.filter, dget])

private theorem js_of_match {s t : Str} {jl : Str → Option Doc}
    (h : (reXlref.match? s).map (fun p => p.2 "js_filt") = some (some t)) (hj : jl t = none) :
    parseFragment jl s = .error .valueError := by
  unfold parseFragment
  cases hm : reXlref.match? s with
  | none => rw [hm] at h; simp at h
  | some p =>
    rw [hm] at h
    simp at h
    simp only [h, parseFilters, hj]

/-- C41, why the condition on `!` is there. Without a sheet part, a `!` inside the filters may be taken
as the end of a sheet name: the filters of `A1:["x!:"]` are good JSON, but the reference is refused
because the text after the `!` is not. -/
theorem C41_bang_in_filters_refuted (jsonLoads : Str → Option Doc)
    (_good : jsonLoads "[\"x!:\"]".toList = some (.list [.str "x!:".toList]))
    (bad : jsonLoads "\"]".toList = none) :
    parseFragment jsonLoads (RefText.text ⟨[], none, some ⟨.a1 ['A'] ['1'], none⟩, none, some ([], "[\"x!:\"]".toList)⟩) =
      .error .valueError := by
  apply js_of_match (t := "\"]".toList) _ bad
  decide

/-- C43. Without a colon there is no second edge. -/
theorem C43_no_colon (jsonLoads : Str → Option Doc) (r : RefText) (h : r.Ok) (e : EdgeText)
    (hst : r.st = some e) (hr : r.range = none) (f : Fragment) (hf : parseFragment jsonLoads r.text = .ok f) :
    f.stEdge = some (edgeOf e) ∧ f.ndEdge = none := by
  obtain ⟨h1, h2, h3, h4⟩ := groups r
  rw [parseFragment, ref_match h] at hf
  simp only [h1, h2, h3, h4, hst, hr, edgesOf] at hf
  split at hf <;> simp at hf
  subst hf; exact ⟨rfl, rfl⟩

/-- C43. In a range, a missing first edge is the top-left corner. -/
theorem C43_missing_first (jsonLoads : Str → Option Doc) (r : RefText) (h : r.Ok)
    (hst : r.st = none) (f : Fragment) (hf : parseFragment jsonLoads r.text = .ok f) :
    f.stEdge = some topLeft := by
  obtain ⟨h1, h2, h3, h4⟩ := groups r
  rw [parseFragment, ref_match h] at hf
  simp only [h1, h2, h3, h4, hst] at hf
  split at hf <;> simp at hf
  subst hf
  match r.range with
  | none => rfl
  | some (none, _) => rfl
  | some (some _, _) => rfl

/-- C43. In a range, a missing second edge is the bottom-right corner. -/
theorem C43_missing_second (jsonLoads : Str → Option Doc) (r : RefText) (h : r.Ok) (ex : Option Str)
    (hr : r.range = some (none, ex)) (f : Fragment) (hf : parseFragment jsonLoads r.text = .ok f) :
    f.ndEdge = some bottomRight := by
  obtain ⟨h1, h2, h3, h4⟩ := groups r
  rw [parseFragment, ref_match h] at hf
  simp only [h1, h2, h3, h4, hr] at hf
  split at hf <;> simp at hf
  subst hf
  cases r.st <;> rfl

/-- C43. A reference without edges and colon, maybe with a sheet, is the whole sheet. -/
theorem C43_empty (jsonLoads : Str → Option Doc) (lead : Str) (hl : Spaces lead) (sheet : Option Str)
    (hs : SheetOk sheet) :
    parseFragment jsonLoads (lead ++ sheetText sheet) =
      .ok ⟨if sheet = some [] then none else sheet, some topLeft, some bottomRight, none, none, none⟩ := by
  have := C41_round_trip jsonLoads ⟨lead, sheet, none, none, none⟩
    ⟨hl, hs, by simp, by simp, by simp, trivial, by simp⟩ rfl
  have hn : RefText.sheetName ⟨lead, sheet, none, none, none⟩ = if sheet = some [] then none else sheet := by
    match sheet with
    | none => rfl
    | some [] => rfl
    | some (x :: t) => simp [RefText.sheetName]
  rw [hn] at this
  simpa [RefText.text, optEdgeText, rangeText, filtText, edgesOf] using this

example (jl : Str → Option Doc) : parseFragment jl "Sheet1!".toList =
    .ok ⟨some "Sheet1".toList, some topLeft, some bottomRight, none, none, none⟩ :=
  C43_empty jl [] (by simp [Spaces]) (some "Sheet1".toList) ⟨by decide, by intro x hx; cases hx; decide⟩

end Props
