import Verif.Lemmas.LassoRun
/-
Properties C83-C85: what a call of `lasso()` opens, closes and uses.
-/
namespace Props
open Py Model Spec Lemmas

private theorem new_ok : FOk Factory.new := by intro w hw; simp [Factory.new] at hw

section
variable (order : List SKey → List SKey) (o : Openers) (installed : Str → Option RunFilter)
  (A : SheetApi SheetObj) (jsonLoads : Str → Option Doc) (xlref : Str) (baseOpts : Option (List (Str × Doc)))
  (available : Option (Str → Option RunFilter)) (ret : Bool) (ctx : Lasso SheetObj)

/-- The run inside `lasso()`. -/
private theorem lassoCall_none : ∃ p : Run (FRes SheetObj),
    (lassoCall order o installed A jsonLoads xlref none baseOpts available ret ctx).events =
      (p.exec order o Factory.new).2.1 ∧
    (lassoCall order o installed A jsonLoads xlref none baseOpts available ret ctx).factory =
      (p.exec order o Factory.new).1.close ∧
    (lassoCall order o installed A jsonLoads xlref none baseOpts available ret ctx).released =
      (p.exec order o Factory.new).1.cached := ⟨_, rfl, rfl, rfl⟩

private theorem lassoCall_some (f : Factory) : ∃ p : Run (FRes SheetObj),
    (lassoCall order o installed A jsonLoads xlref (some f) baseOpts available ret ctx).events =
      (p.exec order o f).2.1 ∧
    (lassoCall order o installed A jsonLoads xlref (some f) baseOpts available ret ctx).factory =
      (p.exec order o f).1 ∧
    (lassoCall order o installed A jsonLoads xlref (some f) baseOpts available ret ctx).released = [] :=
  ⟨_, rfl, rfl, rfl⟩

/-! ### C83: `lasso()` leaves nothing open -/

/-- C83. Without a factory given, whatever the reference, the filters and the outcome: every sheet
that was opened is closed when `lasso()` ends, and none is kept. It is closed with its workbook,
unless another sheet was opened or added meanwhile. Missing: that workbooks are released in that case
too; they are not, see `C83_workbook_refuted`. -/
theorem C83_all_closed_partial (ho : IsOrder order) (hn : NamesBooks o) :
    let r := lassoCall order o installed A jsonLoads xlref none baseOpts available ret ctx
    (∀ k, r.factory.get k = none) ∧
    ∀ e ∈ r.events, e.sheet ∈ r.factory.closed ∧
      (e.sheet ∈ r.released ∨ ∃ e' ∈ r.events, e'.sheet ≠ e.sheet) := by
  simp only
  obtain ⟨p, h1, h2, h3⟩ := lassoCall_none order o installed A jsonLoads xlref baseOpts available ret ctx
  rw [h1, h2, h3]
  refine ⟨fun k => rfl, ?_⟩
  intro e he
  have d := exec_did ho hn p new_ok
  have hcl : ∀ t, t ∈ (p.exec order o Factory.new).1.close.closed ↔
      t ∈ (p.exec order o Factory.new).1.cached ∨ t ∈ (p.exec order o Factory.new).1.closed := by
    intro t; unfold Factory.close Factory.cached; simp only [List.mem_append]
  rw [hcl]
  rcases d.evs e he with ⟨k, hk⟩ | ⟨h4, h5⟩
  · exact ⟨.inl (cached_of_get hk), .inl (cached_of_get hk)⟩
  · exact ⟨.inr h4, .inr h5⟩

/-- C83. In particular, when one sheet only was opened then its workbook is released. -/
theorem C83_one_sheet_partial (ho : IsOrder order) (hn : NamesBooks o) (e : Event)
    (he : (lassoCall order o installed A jsonLoads xlref none baseOpts available ret ctx).events = [e]) :
    e.sheet ∈ (lassoCall order o installed A jsonLoads xlref none baseOpts available ret ctx).released := by
  have h := (C83_all_closed_partial order o installed A jsonLoads xlref baseOpts available ret ctx ho hn).2 e
    (by rw [he]; simp)
  rcases h.2 with h | ⟨e', he', hne⟩
  · exact h
  · rw [he] at he'
    simp only [List.mem_singleton] at he'
    subst he'
    exact absurd rfl hne

/-! ### C84: `lasso()` does not close what is not its own -/

/-- C84. A factory that is given is not closed: its sheets are still there under the same ids and
open, except those whose ids another sheet, opened or added meanwhile, has taken over. When no sheet
was opened or added, it is as it was. -/
theorem C84_given_factory (ho : IsOrder order) (hn : NamesBooks o) (f : Factory) (log : SKey → SheetObj → Prop)
    (hf : History f log) :
    let r := lassoCall order o installed A jsonLoads xlref (some f) baseOpts available ret ctx
    r.released = [] ∧
    (∀ k s, f.get k = some s → (r.factory.get k = some s ∧ s ∉ r.factory.closed) ∨
      ∃ e ∈ r.events, e.sheet ≠ s) ∧
    (r.events = [] → (∀ k, r.factory.get k = f.get k) ∧ r.factory.closed = f.closed) := by
  simp only
  obtain ⟨p, h1, h2, h3⟩ := lassoCall_some order o installed A jsonLoads xlref baseOpts available ret ctx f
  rw [h1, h2, h3]
  have d := exec_did ho hn p (history_ok hf)
  refine ⟨rfl, ?_, ?_⟩
  · intro k s hg
    have hs := ((C46_lookup f log hf k s).1 hg).2
    rcases d.kept k s hg with ⟨h4, h5⟩ | ⟨-, h5⟩
    · exact .inl ⟨h4, fun h => hs (h5 h)⟩
    · exact .inr h5
  · intro he
    obtain ⟨h4, h5⟩ := d.quiet he
    refine ⟨fun k => ?_, h5⟩
    unfold Factory.get; rw [h4]

/-- C84. Without a factory given, only sheets that were opened in the call (or added by a filter) are
closed: not a sheet of the context, unless an opener gave it back. Missing: that the workbook of a
sheet of the context stays open; it does not, see `C84_sibling_refuted`. -/
theorem C84_given_sheet_partial (ho : IsOrder order) (hn : NamesBooks o) (t : SheetObj)
    (ht : t ∈ (lassoCall order o installed A jsonLoads xlref none baseOpts available ret ctx).factory.closed) :
    ∃ e ∈ (lassoCall order o installed A jsonLoads xlref none baseOpts available ret ctx).events, e.sheet = t := by
  obtain ⟨p, h1, h2, h3⟩ := lassoCall_none order o installed A jsonLoads xlref baseOpts available ret ctx
  rw [h1]; rw [h2] at ht
  have d := exec_did ho hn p new_ok
  have hnew : t ∉ Factory.new.cached := by simp [Factory.cached, Factory.new]
  have : t ∈ (p.exec order o Factory.new).1.cached ∨ t ∈ (p.exec order o Factory.new).1.closed := by
    unfold Factory.close at ht
    exact List.mem_append.1 ht
  rcases this with h | h
  · exact (d.cachedFrom t h).resolve_left hnew
  · rcases d.closedFrom t h with h | h | h
    · simp [Factory.new] at h
    · exact absurd h hnew
    · exact h

end

/-! Witnesses -/

/-- A sheet with some values everywhere. -/
def fullApi : SheetApi SheetObj where
  states _ := .ok ⟨2, 2, fun _ _ => true⟩
  margins _ := .ok (⟨0, 0⟩, ⟨1, 1⟩)
  readRect _ _ _ := .ok (.scalar (.int 7))

/-- *xlrd*: every opening makes a new object; the one sheet of a workbook has the name `S` and the number 0. -/
def freshOpeners : Openers where
  book n wb _ := match wb with
    | some w => .ok ⟨n, 'u' :: w, [.text "S".toList, .num 0]⟩
    | none => .error .valueError
  sibling n b sh := .ok ⟨n, 'u' :: b.wb, [sh]⟩

example : NamesBooks freshOpeners := by
  refine ⟨?_, ?_, ?_⟩
  · intro n wb sh s h
    unfold freshOpeners at h
    cases wb with
    | none => simp at h
    | some w => simp at h; subst h; simp
  · intro n b sh s h
    unfold freshOpeners at h
    simp at h; subst h; simp
  · intro n sh s h
    simp [freshOpeners] at h

/-- A filter that follows the reference in its argument, as `recurse` does for a cell. -/
def followFilter : RunFilter where
  func l _ _ := .fetch (some "b.xls".toList) (.text "0".toList) l.sheet (fun r => match r with
    | .ok _ => .done (.ok (.lasso l))
    | .error e => .done (.error e))
  desc := true

/-- Filters with this one. -/
def followFilters (n : Str) : Option RunFilter := if n = "follow".toList then some followFilter else none

/-- The call. -/
def twoIdsCall : Ended :=
  lassoCall id freshOpeners followFilters fullApi (fun _ => some (.list [.str "follow".toList]))
    "b.xls#S!A1:[\"follow\"]".toList none none none false {}

/-- C83 fails for workbooks: after a workbook is referred to by the name of its sheet and then by the
number of the sheet, it is opened twice, and the first of the two is never released, only its sheet is
unloaded. -/
theorem C83_workbook_refuted :
    ∃ s, Event.opened s ∈ twoIdsCall.events ∧ ∀ t, OfBook twoIdsCall.events s t → t ∉ twoIdsCall.released := by
  have he : twoIdsCall.events = [.opened ⟨0, "ub.xls".toList, [.text "S".toList, .num 0]⟩,
      .opened ⟨1, "ub.xls".toList, [.text "S".toList, .num 0]⟩] := by decide +kernel
  refine ⟨⟨0, "ub.xls".toList, [.text "S".toList, .num 0]⟩, by rw [he]; simp, ?_⟩
  have hs : ∀ t, OfBook twoIdsCall.events ⟨0, "ub.xls".toList, [.text "S".toList, .num 0]⟩ t →
      t = ⟨0, "ub.xls".toList, [.text "S".toList, .num 0]⟩ := by
    intro t h
    cases h with
    | self => rfl
    | sibling h1 h2 => rw [he] at h2; simp at h2
  intro t ht
  rw [hs t ht]
  decide +kernel

example : (match twoIdsCall.result with | .ok _ => true | .error _ => false) = true := by decide +kernel

/-- The sheet of the user. -/
def mySheet : SheetObj := ⟨5, "my.xls".toList, [.text "Mine".toList, .num 0]⟩

/-- C84 fails for workbooks: a reference to another sheet of the workbook of the sheet in the context
closes that workbook, as the sibling opened from it is closed with all sheets of its workbook. -/
theorem C84_sibling_refuted :
    ∃ s, Event.sibling mySheet s ∈
        (lassoCall id freshOpeners (fun _ => none) fullApi (fun _ => none) "#Other!A1".toList none none none false
          { sheet := some mySheet }).events ∧
      s ∈ (lassoCall id freshOpeners (fun _ => none) fullApi (fun _ => none) "#Other!A1".toList none none none false
          { sheet := some mySheet }).released :=
  ⟨⟨0, "umy.xls".toList, [.text "Other".toList]⟩, by decide +kernel, by decide +kernel⟩

example : (lassoCall id freshOpeners (fun _ => none) fullApi (fun _ => none) "b.xls#S!A1".toList none none none false
    {}).events = [.opened ⟨0, "ub.xls".toList, [.text "S".toList, .num 0]⟩] := by decide +kernel

/-! C85: the defaults of `lasso()`. -/

private theorem foldl_dset (kvs : List (Str × Doc)) : ∀ (acc : List (Str × Doc)) (k : Str), (dkeys kvs).Nodup →
    dget (kvs.foldl (fun acc kv => dset acc kv.1 kv.2) acc) k = overridden kvs (dget acc) k := by
  induction kvs with
  | nil => intro acc k _; rfl
  | cons kv kvs ih =>
    intro acc k hn
    obtain ⟨k', v⟩ := kv
    simp only [dkeys, List.map_cons, List.nodup_cons] at hn
    rw [List.foldl_cons, ih _ _ hn.2]
    unfold overridden
    rw [dget_cons]
    by_cases he : k' = k
    · subst he
      have : dget kvs k' = none := by rw [dget_eq_none_iff]; exact hn.1
      rw [this]
      simp [dget_dset_self]
    · cases hk : dget kvs k with
      | some w => simp [he]
      | none => simp only [he, if_false]; exact dget_dset_ne _ _ (Ne.symm he)

private theorem three_form (a b c k : Str) (x y z : Doc) : dget [(a, x), (b, y), (c, z)] k =
    if k = a then some x else if k = b then some y else if k = c then some z else none := by
  simp only [dget_cons, dget, eq_comm (a := k)]

private theorem default_get (k : Str) : dget (defaultOpts none) k = documentedOpts k := three_form _ _ _ k _ _ _

/-- C85. `get_default_opts(overrides)`: the given items go before the documented defaults. -/
theorem C85_default_opts (overrides : List (Str × Doc)) (hn : (dkeys overrides).Nodup) (k : Str) :
    dget (defaultOpts (some overrides)) k = overridden overrides documentedOpts k := by
  rw [← funext default_get]
  exact foldl_dset overrides _ k hn

private theorem three_get {a b c k : Str} {x y w : Doc} (hk : k ≠ c) (h : dget [(a, x), (b, x), (c, y)] k = some w) : w = x := by
  simp only [dget_cons] at h
  split at h
  · exact (Option.some.inj h).symm
  · split at h
    · exact (Option.some.inj h).symm
    · split at h
      · rename_i h'; exact absurd h'.symm hk
      · simp [dget] at h

/-- C85 (partial: of the options other than `read`, and of calls without filters only their truth, absent
counting as false). With `base_opts`, all options other than `read` are, when asked by truth, as if the
items given override the default ones. -/
theorem C85_base_opts_partial (installed : Str → Option RunFilter) (given : List (Str × Doc))
    (available : Option (Str → Option RunFilter)) (k : Str) (hk : k ≠ "read".toList) :
    ((dget (makeDefaultRanger installed (some given) available).baseOpts k).getD (.bool false)).truthy =
      ((overridden given documentedOpts k).getD (.bool false)).truthy := by
  have hd : ∀ w, dget (defaultOpts none) k = some w → w = .bool false := fun w hw => three_get hk hw
  rw [← funext default_get]
  cases given with
  | nil =>
    simp only [makeDefaultRanger, overridden, dget]
  | cons kv t =>
    simp only [makeDefaultRanger, overridden]
    cases hg : dget (kv :: t) k with
    | some v => rfl
    | none =>
      simp only [Option.getD_none]
      cases hw : dget (defaultOpts none) k with
      | none => rfl
      | some w => rw [hd w hw]; rfl

/-- C85 (partial: see `C85_filters_refuted`). Without `base_opts` (or with an empty one) the options are the
default ones; without `available_filters` the filters are the installed ones. -/
theorem C85_nothing_given_partial (installed : Str → Option RunFilter) :
    (∀ k, dget (makeDefaultRanger installed none none).baseOpts k = documentedOpts k) ∧
    (∀ k, dget (makeDefaultRanger installed (some []) none).baseOpts k = documentedOpts k) ∧
    (makeDefaultRanger installed none none).filters = installed := ⟨default_get, default_get, rfl⟩

/-- The option that a call of `lasso()` returning the lasso works with. -/
def optOf (e : Ended) (k : Str) : Option Doc :=
  match e.result with
  | .ok (.lasso l) => l.opts.bind (fun o => o.findSome? (fun d => dget d k))
  | _ => none

/-- C85 fails for `base_opts`: giving one option loses the default of another. -/
theorem C85_base_opts_refuted : ∃ (given : List (Str × Doc)) (k : Str),
    (optOf (lassoCall id freshOpeners (fun _ => none) fullApi (fun _ => none) "#A1".toList none (some given) none true
      { sheet := some mySheet }) k).isSome = false ∧
    (overridden given documentedOpts k).isSome = true :=
  ⟨[("lax".toList, .bool true)], "read".toList, by decide +kernel, by decide +kernel⟩

/-- C85 fails for `available_filters`: giving one filter loses the installed ones, so that a reference using
one of these, which works otherwise, fails. -/
theorem C85_filters_refuted : ∃ (installed given : Str → Option RunFilter) (xlref : Str) (json : Str → Option Doc),
    (match (lassoCall id freshOpeners installed fullApi json xlref none none none false { sheet := some mySheet }).result with
      | .ok _ => true | .error _ => false) = true ∧
    (match (lassoCall id freshOpeners installed fullApi json xlref none none (some given) false { sheet := some mySheet }).result with
      | .ok _ => true | .error _ => false) = false ∧
    (match (lassoCall id freshOpeners (fun n => (given n).orElse (fun _ => installed n)) fullApi json xlref none none none false
        { sheet := some mySheet }).result with
      | .ok _ => true | .error _ => false) = true :=
  ⟨followFilters, fun n => if n = "mine".toList then some followFilter else none, "#A1:[\"follow\"]".toList,
    fun _ => some (.list [.str "follow".toList]), by decide +kernel, by decide +kernel, by decide +kernel⟩

example : (dkeys [("lax".toList, Doc.bool true)]).Nodup := by decide

end Props
