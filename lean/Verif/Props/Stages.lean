import Verif.Spec.Stages
import Verif.Props.DoLasso
/-
C101: what a ranger remembers of the last lasso thrown.
-/
namespace Props
open Py Model Spec

section stages
variable {S : Type} {R : RangerI S} {A : SheetApi S} {jsonLoads : Str → Option Doc} {xlref : Str} {ctx : Lasso S}

private theorem stage0 {a : Str} {l : Lasso S} (h : StageOf R A jsonLoads xlref ctx 0 a l) :
    a = "context".toList ∧ l = { ctx with opts := some [R.baseOpts] } := by
  cases h
  exact ⟨rfl, rfl⟩

private theorem stage1 {a : Str} {l : Lasso S} (h : StageOf R A jsonLoads xlref ctx 1 a l) :
    a = "parse".toList ∧ R.plain.parseMerge jsonLoads xlref ctx = .ok l := by
  cases h with
  | parse _ h => exact ⟨rfl, h⟩

private theorem stage2 {a : Str} {l : Lasso S} (h : StageOf R A jsonLoads xlref ctx 2 a l) :
    a = "open".toList ∧ ∃ l0 sheet, R.plain.parseMerge jsonLoads xlref ctx = .ok l0 ∧
      R.fetch l0.urlFile l0.shName l0.sheet = .ok sheet ∧ l = { l0 with sheet := some sheet } := by
  cases h with
  | opened l0 sheet h1 h2 => exact ⟨rfl, l0, sheet, (stage1 h1).2, h2, rfl⟩

private theorem stage3 {a : Str} {l : Lasso S} (h : StageOf R A jsonLoads xlref ctx 3 a l) :
    a = "capture".toList ∧ ∃ l0 sheet r, StageOf R A jsonLoads xlref ctx 2 "open".toList l0 ∧ l0.sheet = some sheet ∧
      resolveRect A l0 sheet = .ok r ∧ l = { l0 with st := r.map (·.1), nd := r.bind (·.2) } := by
  cases h with
  | captured l0 sheet st nd h1 h2 h3 => exact ⟨rfl, l0, sheet, _, h1, h2, h3, rfl⟩
  | capturedEmpty l0 sheet h1 h2 h3 => exact ⟨rfl, l0, sheet, _, h1, h2, h3, rfl⟩

private theorem stage4 {a : Str} {l : Lasso S} (h : StageOf R A jsonLoads xlref ctx 4 a l) :
    a = "read_rect".toList ∧ ∃ l0 v, StageOf R A jsonLoads xlref ctx 3 "capture".toList l0 ∧ l = { l0 with values := v } ∧
      ((∃ sheet st w, l0.sheet = some sheet ∧ l0.st = some st ∧ A.readRect sheet st l0.nd = .ok w ∧ v = w.toDoc) ∨
        (l0.st = none ∧ v = .list [])) := by
  cases h with
  | read l0 sheet st w h1 h2 h3 h4 => exact ⟨rfl, l0, _, h1, rfl, .inl ⟨sheet, st, w, h2, h3, h4, rfl⟩⟩
  | readEmpty l0 h1 h2 h3 => exact ⟨rfl, l0, _, h1, rfl, .inr ⟨h2, rfl⟩⟩

private theorem stage5 {a : Str} {l : Lasso S} (h : StageOf R A jsonLoads xlref ctx 5 a l) :
    ∃ c, a = c.func ∧ StageOf R A jsonLoads xlref ctx 4 "read_rect".toList l ∧ l.callSpec = some c := by
  cases h with
  | filter _ c h1 h2 => exact ⟨c, rfl, h1, h2⟩

/-- There is one lasso for each stage. -/
private theorem stage_unique : ∀ (n : Nat) {a b : Str} {l l' : Lasso S}, StageOf R A jsonLoads xlref ctx n a l →
    StageOf R A jsonLoads xlref ctx n b l' → a = b ∧ l = l'
  | 0, _, _, _, _, h, h' => by
    obtain ⟨rfl, rfl⟩ := stage0 h
    obtain ⟨rfl, rfl⟩ := stage0 h'
    exact ⟨rfl, rfl⟩
  | 1, _, _, _, _, h, h' => by
    obtain ⟨rfl, h1⟩ := stage1 h
    obtain ⟨rfl, h2⟩ := stage1 h'
    rw [h1] at h2
    injection h2 with h2
    exact ⟨rfl, h2⟩
  | 2, _, _, _, _, h, h' => by
    obtain ⟨rfl, l0, sh, e1, e2, rfl⟩ := stage2 h
    obtain ⟨rfl, l0', sh', f1, f2, rfl⟩ := stage2 h'
    rw [e1] at f1
    injection f1 with f1
    subst f1
    rw [e2] at f2
    injection f2 with f2
    subst f2
    exact ⟨rfl, rfl⟩
  | 3, _, _, _, _, h, h' => by
    obtain ⟨rfl, l0, sh, r, e1, e2, e3, rfl⟩ := stage3 h
    obtain ⟨rfl, l0', sh', r', f1, f2, f3, rfl⟩ := stage3 h'
    obtain ⟨_, rfl⟩ := stage_unique 2 e1 f1
    rw [e2] at f2
    injection f2 with f2
    subst f2
    rw [e3] at f3
    injection f3 with f3
    subst f3
    exact ⟨rfl, rfl⟩
  | 4, _, _, _, _, h, h' => by
    obtain ⟨rfl, l0, v, e1, rfl, e3⟩ := stage4 h
    obtain ⟨rfl, l0', v', f1, rfl, f3⟩ := stage4 h'
    obtain ⟨_, rfl⟩ := stage_unique 3 e1 f1
    refine ⟨rfl, ?_⟩
    rcases e3 with ⟨sh, st, w, g1, g2, g3, rfl⟩ | ⟨g2, rfl⟩ <;> rcases f3 with ⟨sh', st', w', g1', g2', g3', rfl⟩ | ⟨g2', rfl⟩
    · rw [g1] at g1'
      injection g1' with g1'
      rw [g2] at g2'
      injection g2' with g2'
      rw [← g1', ← g2', g3] at g3'
      injection g3' with g3'
      rw [g3']
    · rw [g2] at g2'; cases g2'
    · rw [g2] at g2'; cases g2'
    · rfl
  | 5, _, _, _, _, h, h' => by
    obtain ⟨c, rfl, h1, h2⟩ := stage5 h
    obtain ⟨c', rfl, h1', h2'⟩ := stage5 h'
    obtain ⟨_, rfl⟩ := stage_unique 4 h1 h1'
    rw [h2] at h2'
    injection h2' with h2'
    exact ⟨by rw [h2'], rfl⟩
  | n + 6, _, _, _, _, h, _ => by cases h
end stages

private theorem makeCall_quiet {S : Type} {R : RangerI S} (hq : Quiet R) (l : Lasso S) (func : Str) (args : List Doc)
    (kwds : List (Str × Doc)) (s : InterLasso S) : (R.makeCall (.lasso l) func args kwds s).1 = some (func, l) := by
  unfold RangerI.makeCall
  dsimp only
  cases l.opts with
  | none => rfl
  | some o =>
    dsimp only
    cases hf : R.filters func with
    | none => rfl
    | some rec =>
      dsimp only
      have := hq func rec hf l args (ddel kwds "lax".toList) (some (func, l))
      rcases hr : rec.func l args (ddel kwds "lax".toList) (some (func, l)) with ⟨s', r⟩
      rw [hr] at this
      dsimp only at this
      rw [← this]
      rcases r with e | (l' | d) <;> rfl

/-- C101 (partial, see `C101_filtered_refuted` and `C101_text_refuted`). After throwing a lasso with a text for a reference, the ranger
remembers the last stage reached. If the lasso failed before any filter was called, it is the stage whose lasso the next stage could not
be made from. If there is no filter to be called, it is the final lasso, with the values read. If there is one, it is called; and if it
does not use the ranger itself, its name is remembered with the lasso that it was given. -/
theorem C101_stages_partial {S : Type} (R : RangerI S) (A : SheetApi S) (jsonLoads : Str → Option Doc) (xlref : Str) (ctx : Lasso S)
    (s s' : InterLasso S) (r : Except PyErr (FRes S)) (h : R.doLasso A jsonLoads (.str xlref) ctx s = (s', r)) :
    (∃ n stage l, s' = some (stage, l) ∧ StageOf R A jsonLoads xlref ctx n stage l ∧ n < 4 ∧
      (∀ stage' l', ¬ StageOf R A jsonLoads xlref ctx (n + 1) stage' l') ∧ ∃ e, r = .error e) ∨
    (∃ l, s' = some ("read_rect".toList, l) ∧ StageOf R A jsonLoads xlref ctx 4 "read_rect".toList l ∧
      (∀ stage' l', ¬ StageOf R A jsonLoads xlref ctx 5 stage' l') ∧ r = .ok (.lasso l)) ∨
    (∃ name l, StageOf R A jsonLoads xlref ctx 5 name l ∧ (Quiet R → s' = some (name, l))) := by
  have fin : ∀ l, StageOf R A jsonLoads xlref ctx 4 "read_rect".toList l →
      R.runFilters l (some ("read_rect".toList, l)) = (s', r) →
      (∃ l, s' = some ("read_rect".toList, l) ∧ StageOf R A jsonLoads xlref ctx 4 "read_rect".toList l ∧
        (∀ stage' l', ¬ StageOf R A jsonLoads xlref ctx 5 stage' l') ∧ r = .ok (.lasso l)) ∨
      (∃ name l, StageOf R A jsonLoads xlref ctx 5 name l ∧ (Quiet R → s' = some (name, l))) := by
    intro l hl hr
    unfold RangerI.runFilters at hr
    cases hc : l.callSpec with
    | none =>
      rw [hc] at hr
      injection hr with h1 h2
      refine .inl ⟨l, h1.symm, hl, fun stage' l' h5 => ?_, h2.symm⟩
      obtain ⟨c, _, h6, h7⟩ := stage5 h5
      obtain ⟨_, e⟩ := stage_unique 4 hl h6
      rw [← e, hc] at h7
      cases h7
    | some c =>
      refine .inr ⟨c.func, l, .filter l c hl hc, fun hq => ?_⟩
      rw [hc] at hr
      dsimp only at hr
      have := makeCall_quiet hq l c.func c.args c.kwds (some ("read_rect".toList, l))
      rcases hm : R.makeCall (.lasso l) c.func c.args c.kwds (some ("read_rect".toList, l)) with ⟨s1, r1⟩
      rw [hm] at hr this
      dsimp only at this
      rw [← this]
      cases r1 with
      | error e => injection hr with h1 _; exact h1.symm
      | ok q => injection hr with h1 _; exact h1.symm
  unfold RangerI.doLasso at h
  dsimp only at h
  cases hp : R.plain.parseMerge jsonLoads xlref ctx with
  | error e =>
    rw [hp] at h
    injection h with h1 h2
    refine .inl ⟨0, _, _, h1.symm, .context, by omega, fun stage' l' hn => ?_, _, h2.symm⟩
    rw [(stage1 hn).2] at hp
    cases hp
  | ok l1 =>
    rw [hp] at h
    dsimp only at h
    have r1 : StageOf R A jsonLoads xlref ctx 1 "parse".toList l1 := .parse l1 hp
    cases hf : R.fetch l1.urlFile l1.shName l1.sheet with
    | error e =>
      rw [hf] at h
      injection h with h1 h2
      refine .inl ⟨1, _, _, h1.symm, r1, by omega, fun stage' l' hn => ?_, _, h2.symm⟩
      obtain ⟨_, l0, sh, e1, e2, _⟩ := stage2 hn
      rw [hp] at e1
      injection e1 with e1
      rw [← e1, hf] at e2
      cases e2
    | ok sheet =>
      rw [hf] at h
      dsimp only at h
      have r2 := StageOf.opened l1 sheet r1 hf
      cases hr : resolveRect A { l1 with sheet := some sheet } sheet with
      | error e =>
        rw [hr] at h
        injection h with h1 h2
        refine .inl ⟨2, _, _, h1.symm, r2, by omega, fun stage' l' hn => ?_, _, h2.symm⟩
        obtain ⟨_, l0, sh, r', e1, e2, e3, _⟩ := stage3 hn
        obtain ⟨_, e⟩ := stage_unique 2 r2 e1
        rw [← e] at e2 e3
        injection e2 with e2
        rw [← e2, hr] at e3
        cases e3
      | ok rr =>
        rw [hr] at h
        cases rr with
        | none =>
          dsimp only at h
          have r3 := StageOf.capturedEmpty _ sheet r2 rfl hr
          exact .inr (fin _ (.readEmpty _ r3 rfl rfl) h)
        | some q =>
          obtain ⟨st, nd⟩ := q
          dsimp only at h
          have r3 := StageOf.captured _ sheet st nd r2 rfl hr
          cases hv : A.readRect sheet st nd with
          | error e =>
            rw [hv] at h
            injection h with h1 h2
            refine .inl ⟨3, _, _, h1.symm, r3, by omega, fun stage' l' hn => ?_, _, h2.symm⟩
            obtain ⟨_, l0, v, e1, _, e3⟩ := stage4 hn
            obtain ⟨_, e⟩ := stage_unique 3 r3 e1
            rw [← e] at e3
            rcases e3 with ⟨sh, st', w, g1, g2, g3, _⟩ | ⟨g2, _⟩
            · injection g1 with g1
              injection g2 with g2
              rw [← g1, ← g2] at g3
              dsimp only at g3
              rw [hv] at g3
              cases g3
            · cases g2
          | ok v =>
            rw [hv] at h
            dsimp only at h
            exact .inr (fin _ (.read _ sheet st v r3 rfl rfl hv) h)

/-- C101: a stage has one lasso. -/
theorem C101_one_lasso {S : Type} (R : RangerI S) (A : SheetApi S) (jsonLoads : Str → Option Doc) (xlref : Str) (ctx : Lasso S)
    (n : Nat) (a b : Str) (l l' : Lasso S) (h : StageOf R A jsonLoads xlref ctx n a l)
    (h' : StageOf R A jsonLoads xlref ctx n b l') : a = b ∧ l = l' := stage_unique n h h'

/-- C101: throwing a lasso with a text for a reference forgets what was remembered before. -/
theorem C101_fresh {S : Type} (R : RangerI S) (A : SheetApi S) (jsonLoads : Str → Option Doc) (xlref : Str) (ctx : Lasso S)
    (s s' : InterLasso S) : R.doLasso A jsonLoads (.str xlref) ctx s = R.doLasso A jsonLoads (.str xlref) ctx s' := rfl

private theorem same_makeCall {S : Type} {R : RangerI S} {R' : Ranger S} (hs : SameFilters R R') (l : FRes S) (func : Str)
    (args : List Doc) (kwds : List (Str × Doc)) (s : InterLasso S) :
    (R.makeCall l func args kwds s).2 = R'.makeCall l func args kwds := by
  cases l with
  | other d => rfl
  | lasso l =>
    unfold RangerI.makeCall Ranger.makeCall
    dsimp only
    cases l.opts with
    | none => rfl
    | some o =>
      dsimp only
      have h := hs.2.2 func
      cases hf : R.filters func with
      | none =>
        cases hf' : R'.filters func with
        | none => rfl
        | some f' => rw [hf, hf'] at h; exact absurd h id
      | some f =>
        cases hf' : R'.filters func with
        | none => rw [hf, hf'] at h; exact absurd h id
        | some f' =>
          rw [hf, hf'] at h
          dsimp only at h ⊢
          have h2 := h.2 l args (ddel kwds "lax".toList) (some (func, l))
          rw [← h2, ← h.1]
          rcases f.func l args (ddel kwds "lax".toList) (some (func, l)) with ⟨s', r⟩
          rcases r with e | (l' | d) <;> rfl

/-- C101: remembering does not change what lassoing gives. -/
theorem C101_result {S : Type} (R : RangerI S) (R' : Ranger S) (hs : SameFilters R R') (A : SheetApi S)
    (jsonLoads : Str → Option Doc) (xlref : Str) (ctx : Lasso S) (s : InterLasso S) :
    (R.doLasso A jsonLoads (.str xlref) ctx s).2 = R'.doLasso A jsonLoads xlref ctx := by
  have hrun : ∀ l s, (R.runFilters l s).2 = R'.runFilters l := by
    intro l s
    unfold RangerI.runFilters Ranger.runFilters
    cases l.callSpec with
    | none => rfl
    | some c =>
      dsimp only
      rw [← same_makeCall hs (.lasso l) c.func c.args c.kwds s]
      rcases R.makeCall (.lasso l) c.func c.args c.kwds s with ⟨s', r⟩
      cases r <;> rfl
  have hpm : R.plain.parseMerge jsonLoads xlref ctx = R'.parseMerge jsonLoads xlref ctx := by
    unfold Ranger.parseMerge RangerI.plain
    dsimp only
    rw [hs.2.1]
  unfold RangerI.doLasso Ranger.doLasso
  dsimp only
  rw [hpm, hs.1]
  cases R'.parseMerge jsonLoads xlref ctx with
  | error e => rfl
  | ok l =>
    dsimp only
    cases R'.fetch l.urlFile l.shName l.sheet with
    | error e => rfl
    | ok sheet =>
      dsimp only
      cases resolveRect A { l with sheet := some sheet } sheet with
      | error e => rfl
      | ok q =>
        cases q with
        | none => exact hrun _ _
        | some q =>
          obtain ⟨st, nd⟩ := q
          dsimp only
          cases A.readRect sheet st nd with
          | error e => rfl
          | ok v => exact hrun _ _

private theorem same_pipe {S : Type} {R : RangerI S} {R' : Ranger S} (hs : SameFilters R R') : ∀ (fs : List Doc) (l : FRes S) (s : InterLasso S),
    (R.pipe fs l s).2 = R'.pipe fs l
  | [], _, _ => rfl
  | f :: fs, l, s => by
    unfold RangerI.pipe Ranger.pipe
    cases parseCallSpec f with
    | error e => rfl
    | ok c =>
      dsimp only
      rw [← same_makeCall hs l c.func c.args c.kwds s]
      rcases R.makeCall l c.func c.args c.kwds s with ⟨s', r⟩
      cases r with
      | error e => rfl
      | ok l' => exact same_pipe hs fs l' s'

/-- C101: in a pipe of filters that do not use the ranger themselves, the filter that failed is remembered, or else the last one, with
the lasso that it was given by those before it. -/
theorem C101_pipe {S : Type} (R : RangerI S) (R' : Ranger S) (hs : SameFilters R R') (hq : Quiet R) :
    ∀ (before : List Doc) (f : Doc) (after : List Doc) (c : CallSpec) (l0 : FRes S) (l : Lasso S) (s : InterLasso S),
    R'.pipe before l0 = .ok (.lasso l) → parseCallSpec f = .ok c →
    (after = [] ∨ ∃ e, R'.makeCall (.lasso l) c.func c.args c.kwds = .error e) →
    (R.pipe (before ++ f :: after) l0 s).1 = some (c.func, l)
  | [], f, after, c, l0, l, s, hb, hf, hend => by
    unfold Ranger.pipe at hb
    injection hb with hb
    subst hb
    rw [List.nil_append, RangerI.pipe, hf]
    dsimp only
    have h1 := makeCall_quiet hq l c.func c.args c.kwds s
    have h2 := same_makeCall hs (.lasso l) c.func c.args c.kwds s
    rcases hm : R.makeCall (.lasso l) c.func c.args c.kwds s with ⟨s', r⟩
    rw [hm] at h1 h2
    dsimp only at h1 h2
    cases r with
    | error e => exact h1
    | ok l' =>
      rcases hend with rfl | ⟨e, he⟩
      · exact h1
      · rw [he] at h2
        cases h2
  | b :: before, f, after, c, l0, l, s, hb, hf, hend => by
    unfold Ranger.pipe at hb
    rw [List.cons_append, RangerI.pipe]
    cases hp : parseCallSpec b with
    | error e => rw [hp] at hb; cases hb
    | ok cb =>
      rw [hp] at hb
      dsimp only at hb ⊢
      have h2 := same_makeCall hs l0 cb.func cb.args cb.kwds s
      rcases hm : R.makeCall l0 cb.func cb.args cb.kwds s with ⟨s', r⟩
      rw [hm] at h2
      dsimp only at h2
      rw [← h2] at hb
      cases r with
      | error e => cases hb
      | ok l' =>
        dsimp only at hb ⊢
        exact C101_pipe R R' hs hq before f after c l' l s' hb hf hend

/-- A ranger that serves the sheet it is given, with a filter that gives the text `x`. -/
def xRanger : RangerI Grid where
  fetch _ _ s := match s with
    | some s => .ok s
    | none => .error .valueError
  baseOpts := []
  filters name := if name = "x".toList then some ⟨fun l _ _ s => (s, .ok (.lasso { l with values := .str "x".toList })), true⟩ else none

/-- Its filters, without the ranger. -/
def xRangerPlain : Ranger Grid where
  fetch := xRanger.fetch
  baseOpts := []
  filters name := if name = "x".toList then some ⟨fun l _ _ => .ok (.lasso { l with values := .str "x".toList }), true⟩ else none

/-- JSON with the call of `x` only. -/
def xLoads (t : Str) : Option Doc := if t = "\"x\"".toList then some (.str "x".toList) else none

example : Quiet xRanger ∧ SameFilters xRanger xRangerPlain := by
  refine ⟨fun name rec h l args kwds s => ?_, rfl, rfl, fun name => ?_⟩
  · simp only [xRanger] at h
    split at h
    · injection h with h
      rw [← h]
    · cases h
  · simp only [xRanger, xRangerPlain]
    split
    · rename_i h1 h2
      trivial
    · rename_i f f' h1 h2
      split at h1
      · rename_i hn
        rw [if_pos hn] at h2
        injection h1 with h1
        injection h2 with h2
        rw [← h1, ← h2]
        exact ⟨rfl, fun _ _ _ _ => rfl⟩
      · cases h1
    · rename_i h0 h1
      by_cases hn : name = "x".toList
      · rw [if_pos hn, if_pos hn] at h1
        exact h1 _ _ rfl rfl
      · rw [if_neg hn, if_neg hn] at h0
        exact h0 rfl rfl

/-- The stage remembered, its lasso's values, and whether there was an error. -/
private def seen (q : InterLasso Grid × Except PyErr (FRes Grid)) : Option (Str × Bool) × Bool :=
  (q.1.map (fun p => (p.1, p.2.sheet.isSome)), match q.2 with | .ok _ => true | .error _ => false)

example : seen (xRanger.doLasso arrayApi xLoads (.str "#R%".toList) {} none) = (some ("context".toList, false), false) ∧
    seen (xRanger.doLasso arrayApi xLoads (.str "#A1".toList) {} none) = (some ("parse".toList, false), false) ∧
    seen (xRanger.doLasso arrayApi xLoads (.str "#R.C.".toList) { sheet := some ⟨4, 3, fun i j => .int (10 * i + j)⟩ } none) =
      (some ("open".toList, true), false) ∧
    seen (xRanger.doLasso arrayApi xLoads (.str "#A1:B2".toList) { sheet := some ⟨4, 3, fun i j => .int (10 * i + j)⟩ } none) =
      (some ("read_rect".toList, true), true) ∧
    seen (xRanger.doLasso arrayApi xLoads (.str "#A1:B2:\"x\"".toList) { sheet := some ⟨4, 3, fun i j => .int (10 * i + j)⟩ } none) =
      (some ("x".toList, true), true) := by
  refine ⟨?_, ?_, ?_, ?_, ?_⟩ <;> rfl

/-- C101 fails for filters: what is remembered after a lasso that was filtered is not the final lasso, but the one before the filter. -/
theorem C101_filtered_refuted : ∃ l l', xRanger.doLasso arrayApi xLoads (.str "#A1:\"x\"".toList)
      { sheet := some ⟨4, 3, fun i j => .int (10 * i + j)⟩ } none = (some ("x".toList, l), .ok (.lasso l')) ∧
    l.values = .int 0 ∧ l'.values = .str "x".toList := ⟨_, _, by rfl, by rfl, by rfl⟩

/-- C101 fails for references that are no texts: what is remembered is what the execution before left. -/
theorem C101_text_refuted (S : Type) (R : RangerI S) (A : SheetApi S) (jsonLoads : Str → Option Doc) (ctx : Lasso S) (s : InterLasso S) :
    R.doLasso A jsonLoads .null ctx s = (s, .error .valueError) := rfl
end Props
