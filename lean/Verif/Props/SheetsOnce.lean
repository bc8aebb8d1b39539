import Verif.Lemmas.SheetsOnce
import Verif.Props.LassoDesk
/-
C151. A factory opens a sheet once.
-/
namespace Props
open Py Model Spec Lemmas

section
variable {W : Surroundings} {texts : Str → Prop}

private theorem length_le_of_subset {α : Type} [DecidableEq α] : ∀ (l m : List α), l.Nodup → (∀ x ∈ l, x ∈ m) → l.length ≤ m.length := by
  intro l
  induction l with
  | nil => intro m _ _; simp
  | cons a t ih =>
    intro m hn hs
    have ha := hs a (by simp)
    have hn' := List.nodup_cons.1 hn
    have := ih (m.erase a) hn'.2 (fun x hx => by
      have hxa : x ≠ a := by rintro rfl; exact hn'.1 hx
      exact (List.mem_erase_of_ne hxa).2 (hs x (List.mem_cons_of_mem _ hx)))
    rw [List.length_erase_of_mem ha] at this
    have : 0 < m.length := List.length_pos_of_mem ha
    simp; omega

/-- C151, in part: if each workbook is always given by the same text, and each sheet by its name, its number or no id, then a sheet of a
workbook that was once fetched is served from the cache ever after: fetching it opens nothing, closes nothing, and returns a sheet that was
returned before. Missing: other ways of asking, see `C151_texts_refuted` and `C151_ids_refuted`. -/
theorem C151_kept_partial (hW : ProperBooks W) (hT : OneText W texts) {D : Desk} {given : List SheetObj} {asked : List SKey}
    (h : Orderly W texts D given asked) (w : Str) (sh : ShId) (hk : (w, sh) ∈ asked) (order : List SKey → List SKey) :
    (∀ base, (D.fetch W order (some w) sh base).1.fac = D.fac ∧ ∃ s ∈ given, (D.fetch W order (some w) sh base).2 = .ok s) ∧
    ∀ b ∈ given, b.wb = w → sh ≠ .none →
      (D.fetch W order none sh (some b)).1.fac = D.fac ∧ ∃ s ∈ given, (D.fetch W order none sh (some b)).2 = .ok s := by
  obtain ⟨s, hs⟩ := (orderly_keeps hW hT h).2.1 _ hk
  have hg := ((orderly_inv hW h).cached _ _ hs).1
  have hc : ∀ op, D.fac.cachedOr order w sh op = (D.fac, .ok s) := by
    intro op
    unfold Factory.cachedOr
    simp only [hs]
  constructor
  · intro base
    have e : D.fac.fetch order (D.openers W) (some w) sh base = (D.fac, .ok s) := by
      unfold Factory.fetch
      cases base <;> exact hc _
    unfold Desk.fetch
    simp only [e]
    exact ⟨rfl, s, hg, rfl⟩
  · rintro b - rfl hsh
    have e : D.fac.fetch order (D.openers W) none sh (some b) = (D.fac, .ok s) := by
      unfold Factory.fetch
      simp only [if_neg hsh]
      exact hc _
    unfold Desk.fetch
    simp only [e]
    exact ⟨rfl, s, hg, rfl⟩

/-- C151, in part: all in all, there are no more different sheets returned than there are different workbooks and sheets asked for. -/
theorem C151_count_partial (hW : ProperBooks W) (hT : OneText W texts) {D : Desk} {given : List SheetObj} {asked : List SKey}
    (h : Orderly W texts D given asked) (objs : List SheetObj) (hn : objs.Nodup) (ho : ∀ s ∈ objs, s ∈ given) (keys : List SKey)
    (hk : ∀ k ∈ asked, k ∈ keys) : objs.length ≤ keys.length := by
  obtain ⟨-, -, l, l1, l2, l3⟩ := orderly_keeps hW hT h
  have h1 := length_le_of_subset objs (l.map Prod.fst) hn (fun s hs => l2 s (ho s hs))
  have h2 := length_le_of_subset (l.map Prod.snd) keys l1 (fun k hkl => hk k (l3 k hkl))
  simp only [List.length_map] at h1 h2
  omega

/-- Filters that do not fetch sheets leave the ranger without fetching. -/
private theorem runFilters_done (R : RunRanger) (hf : ∀ n f, R.filters n = some f → ∀ l args kwds, ∃ r, f.func l args kwds = .done r)
    (l : Lasso SheetObj) : ∃ r, R.runFilters l = .done r := by
  unfold RunRanger.runFilters
  cases l.callSpec with
  | none => exact ⟨_, rfl⟩
  | some c =>
    simp only
    unfold RunRanger.makeCall
    cases l.opts with
    | none => exact ⟨_, rfl⟩
    | some opts =>
      simp only
      cases hc : R.filters c.func with
      | none => exact ⟨_, rfl⟩
      | some f =>
        simp only
        obtain ⟨r, hr⟩ := hf _ _ hc l c.args (ddel c.kwds "lax".toList)
        rw [hr]
        exact ⟨_, rfl⟩

/-- With such filters, lassoing does to the factory what fetching the sheet does. -/
private theorem doLasso_desk (R : RunRanger) (hf : ∀ n f, R.filters n = some f → ∀ l args kwds, ∃ r, f.func l args kwds = .done r)
    (A : SheetApi SheetObj) (jsonLoads : Str → Option Doc) (xlref : Str) (ctx : Lasso SheetObj) (order : List SKey → List SKey) (D : Desk)
    (l : Lasso SheetObj)
    (hl : (Ranger.mk (S := SheetObj) (fun _ _ _ => .error .valueError) R.baseOpts (fun _ => none)).parseMerge jsonLoads xlref ctx = .ok l) :
    ((R.doLasso A jsonLoads xlref ctx).onDesk W order D).1 = (D.fetch W order l.urlFile (shIdOf l.shName) l.sheet).1 := by
  unfold RunRanger.doLasso
  simp only [hl, Run.onDesk]
  cases (D.fetch W order l.urlFile (shIdOf l.shName) l.sheet).2 with
  | error e => rfl
  | ok s =>
    simp only
    cases resolveRect A { l with sheet := some s } s with
    | error e => rfl
    | ok o =>
      cases o with
      | none =>
        simp only
        obtain ⟨r, hr⟩ := runFilters_done R hf { l with sheet := some s, st := none, nd := none, values := .list [] }
        rw [hr]
        rfl
      | some q =>
        obtain ⟨st, nd⟩ := q
        simp only
        cases A.readRect s st nd with
        | error e => rfl
        | ok v =>
          simp only
          obtain ⟨r, hr⟩ := runFilters_done R hf { l with sheet := some s, st := some st, nd := nd, values := v.toDoc }
          rw [hr]
          rfl

/-- C151, in part: `lasso()` with a factory keeps in it the sheet that it opens. A reference to a workbook and a sheet that were referred to
before with the same factory opens nothing; filters may do anything but fetch sheets. -/
theorem C151_lasso_partial (hW : ProperBooks W) (hT : OneText W texts) {D : Desk} {given : List SheetObj} {asked : List SKey}
    (h : Orderly W texts D given asked) (order : List SKey → List SKey) (ho : IsOrder order) (installed : Str → Option RunFilter)
    (available : Option (Str → Option RunFilter))
    (hf : ∀ n f, available.getD installed n = some f → ∀ l args kwds, ∃ r, f.func l args kwds = .done r)
    (A : SheetApi SheetObj) (jsonLoads : Str → Option Doc) (xlref : Str) (baseOpts : Option (List (Str × Doc))) (returnLasso : Bool)
    (p : XlRef) (hp : parseXlref jsonLoads xlref = .ok p) (hpe : p.encased = none) (w : Str) (hpw : p.urlFile = some w) (hw : texts w)
    (hid : OwnId W w (shIdOf p.frag.shName)) :
    let D1 := (D.lasso W order installed A jsonLoads xlref baseOpts available returnLasso {}).1
    (∃ given1 asked1, Orderly W texts D1 given1 asked1 ∧ (∀ s ∈ given, s ∈ given1) ∧ (∀ k ∈ asked, k ∈ asked1) ∧
      ((w, shIdOf p.frag.shName) ∈ asked1 ∨ ∃ e, openSheetOf W.ok W.cwd W.plugins w (shIdOf p.frag.shName) = .error e)) ∧
    ((w, shIdOf p.frag.shName) ∈ asked → D1.fac = D.fac) := by
  have key : (D.lasso W order installed A jsonLoads xlref baseOpts available returnLasso {}).1 =
      (D.fetch W order (some w) (shIdOf p.frag.shName) none).1 := by
    unfold Desk.lasso
    simp only
    generalize hR : makeDefaultRanger installed _ available = R
    have hRf : R.filters = available.getD installed := by rw [← hR]; rfl
    have hl := doLasso_desk (W := W) R (by rw [hRf]; exact hf) A jsonLoads xlref {} order D
      { opts := overlay (p.frag.opts.map (fun o => [o])) (some [R.baseOpts]), xlRef := some p.xlRef, urlFile := some w,
        shName := overlay p.frag.shName none, stEdge := overlay p.frag.stEdge none, ndEdge := overlay p.frag.ndEdge none,
        expMoves := overlay p.frag.expMoves none, callSpec := overlay p.frag.callSpec none } (by
        unfold Ranger.parseMerge
        simp only [hp, hpe, hpw]
        rfl)
    rw [hl]
    have e1 : overlay p.frag.shName (none : Option Str) = p.frag.shName := by
      unfold overlay; cases p.frag.shName <;> rfl
    rw [e1]
  simp only [key]
  have hI := orderly_inv hW h
  refine ⟨⟨_, _, .book order w (shIdOf p.frag.shName) none h ho hw hid (fun _ hb => nomatch hb), ?_, ?_, ?_⟩, ?_⟩
  · intro s hs
    cases (D.fetch W order (some w) (shIdOf p.frag.shName) none).2 with
    | error e => exact hs
    | ok t => exact List.mem_cons_of_mem _ hs
  · intro k hk
    cases (D.fetch W order (some w) (shIdOf p.frag.shName) none).2 with
    | error e => exact hk
    | ok t => exact List.mem_cons_of_mem _ hk
  · rcases (fetch_book hW hI ho w (shIdOf p.frag.shName) none).2.1 with ⟨e, h1, h2⟩ | ⟨s, h1, h2⟩
    · exact .inr ⟨e, h2⟩
    · left
      rw [h1]
      exact List.mem_cons_self ..
  · intro hk
    exact ((C151_kept_partial hW hT h _ _ hk order).1 none).1

/-- One call for a sheet that is not known. -/
private theorem turn (hW : ProperBooks W) {D : Desk} {given : List SheetObj} (h : Inv W D given) {url : Str} {i : Nat} {k k' : SKey}
    (hk : openSheetOf W.ok W.cwd W.plugins k.1 k.2 = .ok (url, i)) (hne : k.1 ≠ []) (ha : KeysApart W url i k k')
    (hmiss : D.fac.get k = none) (hold : ∀ t, D.fac.get k' = some t → D.fac.get (url, .num i) = some t) :
    ∃ s, (D.fetch W id (some k.1) k.2 none).2 = .ok s ∧ s ∉ given ∧ (D.fetch W id (some k.1) k.2 none).1.fac.get k' = none ∧
      ∀ t, (D.fetch W id (some k.1) k.2 none).1.fac.get k = some t → (D.fetch W id (some k.1) k.2 none).1.fac.get (url, .num i) = some t := by
  obtain ⟨w, sh⟩ := k
  simp only at *
  have e0 : ∀ r, D.fac.cachedOr id w sh (fun n => (D.openers W).book n (some w) sh) = r →
      (D.fetch W id (some w) sh none).1.fac = r.1 ∧ (D.fetch W id (some w) sh none).2 = r.2 := by
    intro r hr
    rw [← hr]
    exact ⟨rfl, rfl⟩
  rcases book_opener (D := D) hW D.fac.opened w sh with ⟨x, hx, hy⟩ | ⟨url', names, j, hx, hy, hB, hi, hl, -⟩
  · rw [hk] at hy; cases hy
  · rw [hk] at hy
    cases hy
    rcases cachedOr_ends (order := id) D.fac w sh (fun n => (D.openers W).book n (some w) sh) (by
        intro s hs
        rw [hs] at hx; cases hx
        exact ⟨hB.1, sheetAt_ids _ _ _ _⟩) with ⟨s, hg, hr⟩ | ⟨hg, y, hy, hr⟩ | ⟨hg, s, f2, hy, hadd, hr⟩
    · rw [hmiss] at hg; cases hg
    · rw [hx] at hy; cases hy
    · rw [hx] at hy
      cases hy
      obtain ⟨e1, e2⟩ := e0 _ hr
      rw [e1, e2]
      have hfresh : sheetAt D.fac.opened url names i ∉ given := by
        intro hm
        obtain ⟨_, _, _, -, -, -, h4, -⟩ := h.good _ hm
        exact absurd h4 (Nat.lt_irrefl _)
      obtain ⟨-, a2, -⟩ := add_facts (f := { D.fac with opened := D.fac.opened + 1 }) idOrder h.fok hadd
      have hnum : Registers (sheetAt D.fac.opened url names i) (.one w) (.one sh) (url, .num i) :=
        ⟨.inl rfl, hB.1, .inl (by simp [sheetAt])⟩
      refine ⟨_, rfl, hfresh, ?_, ?_⟩
      · cases hg2 : f2.get k' with
        | none => rfl
        | some t =>
          exfalso
          rcases (a2 k' t).1 hg2 with ⟨h1, -⟩ | ⟨-, h1, h2⟩
          · obtain ⟨g1, -, g3⟩ := h1
            rcases ha with ⟨b1, b2⟩ | ⟨b1, b2, b3⟩
            · rcases g1 with g1 | g1
              · exact b2 g1
              · exact b1 g1
            · rcases g3 with g3 | g3 | ⟨-, g3⟩
              · simp only [sheetAt, List.mem_cons, List.not_mem_nil, or_false] at g3
                rcases g3 with g3 | g3
                · refine b3 names names[i] hl (by simp) ?_
                  rw [g3]
                  simp [hi]
                · exact b2 g3
              · exact b1 g3
              · cases g3
          · have h1 : D.fac.get k' = some t := h1
            rcases h2 with h2 | h2
            · exact hfresh (h2 ▸ (h.cached _ _ h1).1)
            · exact h2 _ hnum (hold t h1)
      · intro t ht
        have hself : Registers (sheetAt D.fac.opened url names i) (.one w) (.one sh) (w, sh) := ⟨.inr rfl, hne, .inr (.inl rfl)⟩
        rcases (a2 _ t).1 ht with ⟨-, h1⟩ | ⟨h1, -⟩
        · exact (a2 _ t).2 (.inl ⟨hnum, h1⟩)
        · exact absurd hself h1

/-- C151, the converse. If a sheet is asked for in two ways in turn, of which neither is known by the other, then each call opens the
workbook again: all sheets returned are different objects, however often one asks. -/
theorem C151_in_turn (hW : ProperBooks W) (url : Str) (i : Nat) (n : Nat) : ∀ (k k' : SKey),
    openSheetOf W.ok W.cwd W.plugins k.1 k.2 = .ok (url, i) → openSheetOf W.ok W.cwd W.plugins k'.1 k'.2 = .ok (url, i) →
    k.1 ≠ [] → k'.1 ≠ [] → KeysApart W url i k k' → KeysApart W url i k' k →
    (inTurn W k k' n Desk.new []).2.length = n ∧ (inTurn W k k' n Desk.new []).2.Nodup := by
  have key : ∀ (n : Nat) (k k' : SKey) (D : Desk) (given : List SheetObj), Serving W D given → given.Nodup →
      openSheetOf W.ok W.cwd W.plugins k.1 k.2 = .ok (url, i) → openSheetOf W.ok W.cwd W.plugins k'.1 k'.2 = .ok (url, i) →
      k.1 ≠ [] → k'.1 ≠ [] → KeysApart W url i k k' → KeysApart W url i k' k → D.fac.get k = none →
      (∀ t, D.fac.get k' = some t → D.fac.get (url, .num i) = some t) →
      (inTurn W k k' n D given).2.length = given.length + n ∧ (inTurn W k k' n D given).2.Nodup := by
    intro n
    induction n with
    | zero => intro k k' D given _ hn _ _ _ _ _ _ _ _; exact ⟨rfl, hn⟩
    | succ n ih =>
      intro k k' D given hS hn h1 h2 h3 h4 h5 h6 h7 h8
      obtain ⟨s, g1, g2, g3, g4⟩ := turn hW (serving_inv hW hS) h1 h3 h5 h7 h8
      have hS' := Serving.fetch id (some k.1) k.2 none hS idOrder (fun _ hb => nomatch hb)
      simp only [inTurn]
      rw [g1] at hS' ⊢
      obtain ⟨r1, r2⟩ := ih k' k _ (s :: given) hS' (List.nodup_cons.2 ⟨g2, hn⟩) h2 h1 h4 h3 h6 h5 g3 g4
      refine ⟨?_, r2⟩
      show (inTurn W k' k n _ (s :: given)).2.length = _
      rw [r1]
      simp only [List.length_cons]
      omega
  intro k k' h1 h2 h3 h4 h5 h6
  have := key n k k' Desk.new [] .new List.nodup_nil h1 h2 h3 h4 h5 h6 rfl (fun t ht => by
    simp [Desk.new, Factory.new, Factory.get] at ht)
  simpa using this

/-- C151. A sheet that a filter adds to the factory under a workbook and a sheet id is what fetching these returns, on a factory used in any
way before. -/
theorem C151_added (hW : ProperBooks W) {D : Desk} {given : List SheetObj} (hD : Serving W D given) (order : List SKey → List SKey)
    (ho : IsOrder order) (s : SheetObj) (w : Str) (hw : w ≠ []) (sh : ShId) :
    ((Run.add s (.one w) (.one sh) (fun _ => .fetch (some w) sh none (fun r => .done r))).onDesk W order D).2 = .ok s := by
  have hself : Registers s (.one w) (.one sh) (w, sh) := ⟨.inr rfl, hw, .inr (.inl rfl)⟩
  cases ha : D.fac.add order s (.one w) (.one sh) with
  | error e =>
    exfalso
    unfold Factory.add at ha
    simp only at ha
    split at ha
    · rename_i he
      have := mem_deriveKeys.2 hself
      rw [List.isEmpty_iff.1 he] at this
      cases this
    · cases ha
  | ok f =>
    obtain ⟨-, a2, -⟩ := add_facts ho (serving_inv hW hD).fok ha
    have hg : f.get (w, sh) = some s := (a2 _ _).2 (.inl ⟨hself, rfl⟩)
    simp only [Run.onDesk, ha, Desk.fetch, Factory.fetch, Factory.cachedOr, hg]

end

/-! ### A workbook -/

/-- A factory from which sheets were fetched by name, as siblings and with no id, each workbook by one text. -/
private def onlyA (w : Str) : Prop := w = "a.xls".toList

private theorem oneA : OneText Wx onlyA := ⟨fun _ _ _ h1 h2 _ _ => by rw [h1, h2], fun _ h => by rw [h]; decide⟩

private theorem namesA : listSheetNames Wx.ok Wx.cwd Wx.plugins "a.xls".toList = .ok ["A".toList, "B".toList] := by rfl
private theorem namesU : listSheetNames Wx.ok Wx.cwd Wx.plugins "file:///w/a.xls".toList = .ok ["A".toList, "B".toList] := by rfl

private theorem ownA : OwnId Wx "a.xls".toList (.text "A".toList) := by
  intro names url i h1 h2
  have e : openSheetOf Wx.ok Wx.cwd Wx.plugins "a.xls".toList (.text "A".toList) = .ok ("file:///w/a.xls".toList, 0) := by rfl
  rw [namesA] at h1
  rw [e] at h2
  cases h1
  cases h2
  exact .inr (.inl ⟨_, rfl, rfl⟩)

private theorem ownB : OwnId Wx "file:///w/a.xls".toList (.text "B".toList) := by
  intro names url i h1 h2
  have e : openSheetOf Wx.ok Wx.cwd Wx.plugins "file:///w/a.xls".toList (.text "B".toList) = .ok ("file:///w/a.xls".toList, 1) := by rfl
  rw [namesU] at h1
  rw [e] at h2
  cases h1
  cases h2
  exact .inr (.inl ⟨_, rfl, rfl⟩)

/-- Sheet "A", then its sibling "B", then the first sheet with no id. -/
private def D3 : Desk := ((D1.fetch Wx id none (.text "B".toList) (some sA)).1.fetch Wx id (some "a.xls".toList) .none none).1
private def sB : SheetObj := ⟨1, "file:///w/a.xls".toList, [.text "B".toList, .num 1]⟩
private def sA2 : SheetObj := ⟨2, "file:///w/a.xls".toList, [.text "A".toList, .num 0]⟩

private theorem orderly3 : Orderly Wx onlyA D3 [sA2, sB, sA]
    [("a.xls".toList, .none), ("file:///w/a.xls".toList, .text "B".toList), ("a.xls".toList, .text "A".toList)] :=
  .book id "a.xls".toList .none none
    (.sibling id sA (.text "B".toList) (.book id "a.xls".toList (.text "A".toList) none .new idOrder rfl ownA (fun _ h => nomatch h))
      idOrder (List.mem_singleton.2 rfl) (by decide) ownB)
    idOrder rfl (fun _ _ _ _ _ => .inl rfl) (fun _ h => nomatch h)

/-- On it: sheet "A" and its siblings are served, nothing is opened. -/
example : (D3.fetch Wx id (some "a.xls".toList) (.text "A".toList) none).2 = .ok sA2 ∧
    (D3.fetch Wx id none (.text "B".toList) (some sA)).2 = .ok sB ∧ D3.fac.opened = 3 ∧
    (D3.fetch Wx id (some "a.xls".toList) (.text "A".toList) none).1.fac.opened = 3 := ⟨rfl, rfl, rfl, rfl⟩

example : ([sA2, sB, sA] : List SheetObj).length ≤
    ([("a.xls".toList, .none), ("file:///w/a.xls".toList, .text "B".toList), ("a.xls".toList, .text "A".toList)] : List SKey).length :=
  C151_count_partial properWx oneA orderly3 _ (by decide) (fun _ h => h) _ (fun _ h => h)

/-- A reference as asked for, and a filter that fetches nothing. -/
example : ∃ p, parseXlref (fun _ => none) "a.xls#A!A1".toList = .ok p ∧ p.encased = none ∧ p.urlFile = some "a.xls".toList ∧
    OwnId Wx "a.xls".toList (shIdOf p.frag.shName) := ⟨_, rfl, rfl, rfl, ownA⟩

/-- C151. With two texts for a workbook, each call opens the workbook again. -/
theorem C151_texts_refuted : ∃ (W : Surroundings) (w w' : Str) (sh : ShId) (url : Str) (i : Nat), ProperBooks W ∧
    openSheetOf W.ok W.cwd W.plugins w sh = .ok (url, i) ∧ openSheetOf W.ok W.cwd W.plugins w' sh = .ok (url, i) ∧
    ∀ n, (inTurn W (w, sh) (w', sh) n Desk.new []).2.length = n ∧ (inTurn W (w, sh) (w', sh) n Desk.new []).2.Nodup := by
  refine ⟨Wx, "a.xls".toList, "./a.xls".toList, .text "A".toList, "file:///w/a.xls".toList, 0, properWx, by rfl, by rfl, fun n => ?_⟩
  exact C151_in_turn properWx _ _ n _ _ (by rfl) (by rfl) (by decide) (by decide) (.inl (by decide)) (.inl (by decide))

/-- C151. So it does if the first sheet is asked for with no id and by its number as text. -/
theorem C151_ids_refuted : ∃ (W : Surroundings) (w : Str) (sh sh' : ShId) (url : Str) (i : Nat), ProperBooks W ∧
    openSheetOf W.ok W.cwd W.plugins w sh = .ok (url, i) ∧ openSheetOf W.ok W.cwd W.plugins w sh' = .ok (url, i) ∧
    ∀ n, (inTurn W (w, sh) (w, sh') n Desk.new []).2.length = n ∧ (inTurn W (w, sh) (w, sh') n Desk.new []).2.Nodup := by
  refine ⟨Wx, "a.xls".toList, .none, .text "0".toList, "file:///w/a.xls".toList, 0, properWx, by rfl, by rfl, fun n => ?_⟩
  refine C151_in_turn properWx _ _ n _ _ (by rfl) (by rfl) (by decide) (by decide) (.inr ⟨by decide, by decide, ?_⟩) (.inr ⟨by decide, by decide, ?_⟩)
  · intro names m h1 h2
    rw [show (("a.xls".toList, ShId.none) : SKey).1 = "a.xls".toList from rfl, namesA] at h1
    cases h1
    cases h2
    decide
  · intro names m _ _
    exact fun h => nomatch h

end Props
