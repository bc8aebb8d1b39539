import Verif.Spec.RecurringDesk
import Verif.Props.LassoDesk
/-
The two forms of the filters end alike.
-/
namespace Lemmas
open Py Model Spec Props

section
variable {W : Surroundings} {J : Str → Option Doc}

theorem EndsIn.andThen {α β γ δ : Type} {Q : List SheetObj → Except PyErr α → γ → Prop} {Q2 : List SheetObj → Except PyErr β → δ → Prop}
    {given : List SheetObj} {p : Run α} {r : γ} {g : Except PyErr α → Run β} {r2 : δ} (h : EndsIn W Q given p r)
    (hg : ∀ given1 x, (∀ s ∈ given, s ∈ given1) → Q given1 x r → EndsIn W Q2 given1 (g x) r2) : EndsIn W Q2 given (p.andThen g) r2 := by
  intro order ho D given0 h0 hD
  obtain ⟨given1, h1, h2, h3⟩ := h order ho D given0 h0 hD
  rw [onDesk_andThen]
  obtain ⟨given2, k1, k2, k3⟩ := hg given1 _ (fun s hs => h1 s (h0 s hs)) h3 order ho _ given1 (fun _ h => h) h2
  exact ⟨given2, fun s hs => k1 s (h1 s hs), k2, k3⟩

theorem EndsIn.done {α β : Type} {Q : List SheetObj → Except PyErr α → β → Prop} {given : List SheetObj} {x : Except PyErr α} {r : β}
    (h : ∀ given0, (∀ s ∈ given, s ∈ given0) → Q given0 x r) : EndsIn W Q given (.done x) r := by
  intro order ho D given0 h0 hD
  exact ⟨given0, fun _ h => h, hD, h given0 h0⟩

/-- The same value, of a kind, or the same error. -/
inductive Like {α : Type} (C : α → Prop) : List SheetObj → Except PyErr α → Except PyErr α → Prop
  | ok (g a) : C a → Like C g (.ok a) (.ok a)
  | error (g e) : Like C g (.error e) (.error e)

theorem safe_mono {g g' : List SheetObj} (h : ∀ s ∈ g, s ∈ g') {x : Except PyErr (FRes SheetObj)} {r : Except PyErr (FRes BookSheet)}
    (hx : SafeEnd W J g x r) : SafeEnd W J g' x r := by
  cases hx with
  | lasso l l' h1 h2 => exact .lasso _ _ (lasso_mono h h1) h2
  | other d h1 => exact .other _ h1
  | error e => exact .error _

theorem safe_done {g : List SheetObj} {x : Except PyErr (FRes SheetObj)} {r : Except PyErr (FRes BookSheet)} (hx : SafeEnd W J g x r) :
    EndsIn W (SafeEnd W J) g (.done x) r := EndsIn.done (fun _ h => safe_mono h hx)

theorem safe_cases {g : List SheetObj} {x : Except PyErr (FRes SheetObj)} {r : Except PyErr (FRes BookSheet)} (hx : SafeEnd W J g x r) :
    (∃ e, x = .error e ∧ r = .error e) ∨ ∃ a a', x = .ok a ∧ r = .ok a' ∧ SafeEnd W J g (.ok a) (.ok a') := by
  cases hx with
  | lasso l l' h1 h2 => exact .inr ⟨_, _, rfl, rfl, .lasso _ _ h1 h2⟩
  | other d h1 => exact .inr ⟨_, _, rfl, rfl, .other _ h1⟩
  | error e => exact .inl ⟨_, rfl, rfl⟩

/-- Both forms of a ranger have the same filters. -/
def SameFilters (W : Surroundings) (J : Str → Option Doc) (R : RunRanger) (R' : Ranger BookSheet) : Prop :=
  ∀ n, (R.filters n = none ∧ R'.filters n = none) ∨ ∃ f f', R.filters n = some f ∧ R'.filters n = some f' ∧ f.desc = f'.desc ∧
    ∀ given l l', SameLasso given l l' → NoNumbers W J l'.values → ∀ args kwds, EndsIn W (SafeEnd W J) given (f.func l args kwds) (f'.func l' args kwds)

variable {R : RunRanger} {R' : Ranger BookSheet}

theorem makeCall_safe (hf : SameFilters W J R R') {given : List SheetObj} {l : Lasso SheetObj} {l' : Lasso BookSheet} (hl : SameLasso given l l')
    (hv : NoNumbers W J l'.values) (func : Str) (args : List Doc) (kwds : List (Str × Doc)) :
    EndsIn W (SafeEnd W J) given (R.makeCall l func args kwds) (R'.makeCall (.lasso l') func args kwds) := by
  have hopts : l.opts = l'.opts := by rw [hl.1]; rfl
  unfold RunRanger.makeCall Ranger.makeCall
  simp only [hopts]
  cases l'.opts with
  | none => exact safe_done (.error _)
  | some opts =>
    simp only
    rcases hf func with ⟨h1, h2⟩ | ⟨f, f', h1, h2, h3, h4⟩
    · simp only [h1, h2]
      apply safe_done
      split
      · exact .lasso _ _ hl hv
      · exact .error _
    · simp only [h1, h2, h3]
      have h5 := h4 given l l' hl hv args (ddel kwds "lax".toList)
      revert h5
      generalize f'.func l' args (ddel kwds "lax".toList) = r'
      intro h5
      refine EndsIn.andThen h5 ?_
      intro given1 x hg hx
      apply safe_done
      cases hx with
      | lasso a a' ha hv' => exact .lasso _ _ ha hv'
      | other d hd =>
        simp only
        split
        · exact .error _
        · split
          · exact .other _ hd
          · exact .error _
      | error e =>
        simp only
        split
        · exact .error _
        · split
          · exact .lasso _ _ (lasso_mono hg hl) hv
          · exact .error _

theorem call_safe (hf : SameFilters W J R R') {given : List SheetObj} {l : FRes SheetObj} {l' : FRes BookSheet}
    (hl : SafeEnd W J given (.ok l) (.ok l')) (func : Str) (args : List Doc) (kwds : List (Str × Doc)) :
    EndsIn W (SafeEnd W J) given (R.call l func args kwds) (R'.makeCall l' func args kwds) := by
  cases hl with
  | lasso a a' ha hv => exact makeCall_safe hf ha hv func args kwds
  | other d hd => exact safe_done (.error _)

theorem runFilters_safe (hf : SameFilters W J R R') {given : List SheetObj} {l : Lasso SheetObj} {l' : Lasso BookSheet} (hl : SameLasso given l l')
    (hv : NoNumbers W J l'.values) : EndsIn W (SafeEnd W J) given (R.runFilters l) (R'.runFilters l') := by
  have hc : l.callSpec = l'.callSpec := by rw [hl.1]; rfl
  unfold RunRanger.runFilters Ranger.runFilters
  rw [hc]
  cases l'.callSpec with
  | none => exact safe_done (.lasso _ _ hl hv)
  | some c =>
    simp only
    have h5 := makeCall_safe hf hl hv c.func c.args c.kwds
    revert h5
    generalize R'.makeCall (.lasso l') c.func c.args c.kwds = r'
    intro h5
    refine EndsIn.andThen h5 ?_
    intro given1 x hg hx
    apply safe_done
    cases hx with
    | lasso a a' ha hv' => exact .lasso _ _ ha hv'
    | other d hd => exact .other _ hd
    | error e => exact .error _

theorem pipe_safe (hf : SameFilters W J R R') (fs : List Doc) : ∀ {given : List SheetObj} {l : FRes SheetObj} {l' : FRes BookSheet},
    SafeEnd W J given (.ok l) (.ok l') → EndsIn W (SafeEnd W J) given (R.pipe fs l) (R'.pipe fs l') := by
  induction fs with
  | nil => intro given l l' hl; exact safe_done hl
  | cons f fs ih =>
    intro given l l' hl
    unfold RunRanger.pipe Ranger.pipe
    cases parseCallSpec f with
    | error e => exact safe_done (.error _)
    | ok c =>
      simp only
      have h5 := call_safe hf hl c.func c.args c.kwds
      revert h5
      generalize R'.makeCall l' c.func c.args c.kwds = r'
      intro h5
      refine EndsIn.andThen h5 ?_
      intro given1 x hg hx
      cases hx with
      | lasso a a' ha hv' => exact ih (.lasso _ _ ha hv')
      | other d hd => exact ih (.other _ hd)
      | error e => exact safe_done (.error _)

/-- The same outcome, with the same call-specifications. -/
inductive SubsEnd (W : Surroundings) (J : Str → Option Doc) (given : List SheetObj) :
    Except PyErr (FRes SheetObj × List CallSpec) → Except PyErr (FRes BookSheet × List CallSpec) → Prop
  | ok (l l' cs) : SafeEnd W J given (.ok l) (.ok l') → SubsEnd W J given (.ok (l, cs)) (.ok (l', cs))
  | error (e) : SubsEnd W J given (.error e) (.error e)

theorem runSubs_safe (hf : SameFilters W J R R') (cs : List CallSpec) : ∀ {given : List SheetObj} {l : FRes SheetObj} {l' : FRes BookSheet},
    SafeEnd W J given (.ok l) (.ok l') → EndsIn W (SubsEnd W J) given (R.runSubs cs l) (R'.runSubs cs l') := by
  induction cs with
  | nil => intro given l l' hl; exact EndsIn.done (fun _ h => .ok _ _ _ (safe_mono h hl))
  | cons c cs ih =>
    intro given l l' hl
    unfold RunRanger.runSubs Ranger.runSubs
    have h5 := call_safe hf hl c.func c.args c.kwds
    revert h5
    generalize R'.makeCall l' c.func c.args c.kwds = r'
    intro h5
    refine EndsIn.andThen h5 ?_
    intro given1 x hg hx
    rcases safe_cases hx with ⟨e, rfl, rfl⟩ | ⟨a, a', rfl, rfl, ha⟩
    · exact EndsIn.done (fun _ _ => .error _)
    · simp only
      have h6 := ih ha
      revert h6
      generalize R'.runSubs cs a' = r'
      intro h6
      refine EndsIn.andThen h6 ?_
      intro given2 y hg2 hy
      cases hy with
      | ok b b' cs' hb => exact EndsIn.done (fun _ h => .ok _ _ _ (safe_mono h hb))
      | error e => exact EndsIn.done (fun _ _ => .error _)

/-- The same outcome of an element function. -/
inductive ElEnd (W : Surroundings) (J : Str → Option Doc) (given : List SheetObj) :
    Except PyErr (Bool × FRes SheetObj) → Except PyErr (Bool × FRes BookSheet) → Prop
  | ok (b l l') : SafeEnd W J given (.ok l) (.ok l') → ElEnd W J given (.ok (b, l)) (.ok (b, l'))
  | error (e) : ElEnd W J given (.error e) (.error e)

/-- An outcome of an element. -/
def StepFine (W : Surroundings) (J : Str → Option Doc) (q : Option Doc × List CallSpec) : Prop := ∀ y, q.1 = some y → NoNumbers W J y

theorem like_done {α : Type} {C : α → Prop} {g : List SheetObj} {a : α} (h : C a) : EndsIn W (Like C) g (.done (.ok a)) (.ok a) :=
  EndsIn.done (fun _ _ => .ok _ _ h)

theorem like_err {α : Type} {C : α → Prop} {g : List SheetObj} {e : PyErr} : EndsIn W (Like C) g (.done (.error e)) (.error e) :=
  EndsIn.done (fun _ _ => .error _ _)

theorem callElement_safe (hf : SameFilters W J R R') {given : List SheetObj} {l : Lasso SheetObj} {l' : Lasso BookSheet} (hl : SameLasso given l l')
    {ef : RunEFun} {ef' : EFun BookSheet} (bc : Option Coords) (elval : Doc)
    (he : EndsIn W (ElEnd W J) given (ef l bc elval) (ef' l' bc elval)) (subs : List CallSpec) :
    EndsIn W (Like (StepFine W J)) given (R.callElement ef l subs bc elval) (R'.callElement ef' l' subs bc elval) := by
  unfold RunRanger.callElement Ranger.callElement
  revert he
  generalize ef' l' bc elval = r'
  intro he
  refine EndsIn.andThen he ?_
  intro given1 x hg hx
  cases hx with
  | error e => exact like_err
  | ok b a a' ha =>
    cases b with
    | false => exact like_done (fun y hy => by cases hy)
    | true =>
      simp only
      cases ha with
      | lasso a a' h1 h2 =>
        simp only
        have h6 := runSubs_safe hf subs (.lasso a a' h1 h2)
        revert h6
        generalize R'.runSubs subs _ = r'
        intro h6
        refine EndsIn.andThen h6 ?_
        intro given2 y hg2 hy
        cases hy with
        | error e => exact like_err
        | ok b b' cs' hb =>
          cases hb with
          | lasso b b' h1 h2 =>
            have : b.values = b'.values := by rw [h1.1]; rfl
            simp only [this]
            exact like_done (fun y hy => by cases hy; exact h2)
          | other d h1 =>
            simp only
            split
            · exact like_err
            · exact like_done (fun y hy => by cases hy; exact h1)
      | other d h1 =>
        simp only
        have h6 := runSubs_safe hf subs (.lasso { l with values := d } { l' with values := d } ⟨(by (conv => lhs; rw [hl.1]); rfl), sheet_mono hg hl.2⟩ h1)
        revert h6
        generalize R'.runSubs subs _ = r'
        intro h6
        refine EndsIn.andThen h6 ?_
        intro given2 y hg2 hy
        cases hy with
        | error e => exact like_err
        | ok b b' cs' hb =>
          cases hb with
          | lasso b b' h1 h2 =>
            have : b.values = b'.values := by rw [h1.1]; rfl
            simp only [this]
            exact like_done (fun y hy => by cases hy; exact h2)
          | other d h1 =>
            simp only
            split
            · exact like_err
            · exact like_done (fun y hy => by cases hy; exact h1)

theorem numbers_list {xs : List Doc} : NoNumbers W J (.list xs) ↔ ∀ x ∈ xs, NoNumbers W J x := by
  constructor
  · intro h x hx t ht
    exact h t (.item xs x hx ht)
  · intro h t ht
    cases ht with
    | item _ x hx ht => exact h x hx t ht

theorem numbers_dict {kvs : List (Str × Doc)} : NoNumbers W J (.dict kvs) ↔ ∀ k x, (k, x) ∈ kvs → NoNumbers W J x := by
  constructor
  · intro h k x hx t ht
    exact h t (.value kvs k x hx ht)
  · intro h t ht
    cases ht with
    | value _ k x hx ht => exact h k x hx t ht

section
variable {cfg : DiveCfg} {step : List CallSpec → Option Coords → Doc → Run (Option Doc × List CallSpec)}
  {step' : List CallSpec → Option Coords → Doc → Except PyErr (Option Doc × List CallSpec)}

theorem diveLeaf_safe {given : List SheetObj} (c : Nat) (bc : Option Coords) (s : List CallSpec) (d : Doc) (hd : NoNumbers W J d)
    (hs : EndsIn W (Like (StepFine W J)) given (step s bc d) (step' s bc d)) :
    EndsIn W (Like (fun q => NoNumbers W J q.1)) given (diveLeafRun cfg step c bc s d) (diveLeaf cfg step' c bc s d) := by
  unfold diveLeafRun diveLeaf
  split
  · exact like_done hd
  · revert hs
    generalize step' s bc d = r
    intro hs
    refine EndsIn.andThen hs ?_
    intro given1 x hg hx
    cases hx with
    | error e => exact like_err
    | ok q hq =>
      obtain ⟨o, s'⟩ := q
      cases o with
      | none => exact like_done hd
      | some y => exact like_done (hq y rfl)

mutual
theorem dive_safe (given : List SheetObj)
    (hs : ∀ given1, (∀ s ∈ given, s ∈ given1) → ∀ s bc d, NoNumbers W J d → EndsIn W (Like (StepFine W J)) given1 (step s bc d) (step' s bc d))
    (d : Doc) (c : Nat) (bc : Option Coords) (s : List CallSpec) (hd : NoNumbers W J d) :
    EndsIn W (Like (fun q => NoNumbers W J q.1)) given (diveRun cfg step c bc s d) (dive cfg step' c bc s d) := by
  match d with
  | .dict kvs =>
    unfold diveRun dive
    split
    · exact like_done hd
    · have h6 := diveItems_safe given hs kvs c s (numbers_dict.1 hd)
      revert h6
      generalize diveItems cfg step' c s kvs = r
      intro h6
      refine EndsIn.andThen h6 ?_
      intro given1 x hg hx
      cases hx with
      | error e => exact like_err
      | ok q hq => exact like_done (numbers_dict.2 hq)
  | .list xs =>
    unfold diveRun dive
    split
    · exact like_done hd
    · have h5 := hs given (fun _ h => h) s bc (.list xs) hd
      revert h5
      generalize step' s bc (.list xs) = r
      intro h5
      refine EndsIn.andThen h5 ?_
      intro given1 x hg hx
      cases hx with
      | error e => exact like_err
      | ok q hq =>
        obtain ⟨o, s'⟩ := q
        cases o with
        | some y => exact like_done (hq y rfl)
        | none =>
          simp only
          have h6 := diveList_safe given1 (fun g hg1 => hs g (fun s h => hg1 s (hg s h))) xs c bc 0 s' (numbers_list.1 hd)
          revert h6
          generalize diveList cfg step' c bc 0 s' xs = r
          intro h6
          refine EndsIn.andThen h6 ?_
          intro given1 x hg hx
          cases hx with
          | error e => exact like_err
          | ok q hq => exact like_done (numbers_list.2 hq)
  | .null => unfold diveRun dive; exact diveLeaf_safe c bc s _ hd (hs given (fun _ h => h) s bc _ hd)
  | .bool b => unfold diveRun dive; exact diveLeaf_safe c bc s _ hd (hs given (fun _ h => h) s bc _ hd)
  | .int i => unfold diveRun dive; exact diveLeaf_safe c bc s _ hd (hs given (fun _ h => h) s bc _ hd)
  | .atom t => unfold diveRun dive; exact diveLeaf_safe c bc s _ hd (hs given (fun _ h => h) s bc _ hd)
  | .str t => unfold diveRun dive; exact diveLeaf_safe c bc s _ hd (hs given (fun _ h => h) s bc _ hd)

theorem diveList_safe (given : List SheetObj)
    (hs : ∀ given1, (∀ s ∈ given, s ∈ given1) → ∀ s bc d, NoNumbers W J d → EndsIn W (Like (StepFine W J)) given1 (step s bc d) (step' s bc d))
    (xs : List Doc) (c : Nat) (bc : Option Coords) (i : Nat) (s : List CallSpec) (hd : ∀ x ∈ xs, NoNumbers W J x) :
    EndsIn W (Like (fun q => ∀ x ∈ q.1, NoNumbers W J x)) given (diveListRun cfg step c bc i s xs) (diveList cfg step' c bc i s xs) := by
  match xs with
  | [] => unfold diveListRun diveList; exact like_done hd
  | x :: xs =>
    unfold diveListRun diveList
    have h5 := dive_safe given hs x (c + 1) (updBase cfg.pandas c bc i) s (hd x (by simp))
    revert h5
    generalize dive cfg step' (c + 1) (updBase cfg.pandas c bc i) s x = r
    intro h5
    refine EndsIn.andThen h5 ?_
    intro given1 y hg hy
    cases hy with
    | error e => exact like_err
    | ok q hq =>
      simp only
      have h6 := diveList_safe given1 (fun g hg1 => hs g (fun s h => hg1 s (hg s h))) xs c bc (i + 1) q.2 (fun x hx => hd x (List.mem_cons_of_mem _ hx))
      revert h6
      generalize diveList cfg step' c bc (i + 1) q.2 xs = r
      intro h6
      refine EndsIn.andThen h6 ?_
      intro given2 z hg2 hz
      cases hz with
      | error e => exact like_err
      | ok q' hq' =>
        refine like_done ?_
        intro x hx
        rcases List.mem_cons.1 hx with rfl | hx
        · exact hq
        · exact hq' x hx

theorem diveItems_safe (given : List SheetObj)
    (hs : ∀ given1, (∀ s ∈ given, s ∈ given1) → ∀ s bc d, NoNumbers W J d → EndsIn W (Like (StepFine W J)) given1 (step s bc d) (step' s bc d))
    (kvs : List (Str × Doc)) (c : Nat) (s : List CallSpec) (hd : ∀ k x, (k, x) ∈ kvs → NoNumbers W J x) :
    EndsIn W (Like (fun q => ∀ k x, (k, x) ∈ q.1 → NoNumbers W J x)) given (diveItemsRun cfg step c s kvs) (diveItems cfg step' c s kvs) := by
  match kvs with
  | [] => unfold diveItemsRun diveItems; exact like_done hd
  | (k, x) :: kvs =>
    unfold diveItemsRun diveItems
    split
    · have h5 := dive_safe given hs x (c + 1) none s (hd k x (by simp))
      revert h5
      generalize dive cfg step' (c + 1) none s x = r
      intro h5
      refine EndsIn.andThen h5 ?_
      intro given1 y hg hy
      cases hy with
      | error e => exact like_err
      | ok q hq =>
        simp only
        have h6 := diveItems_safe given1 (fun g hg1 => hs g (fun s h => hg1 s (hg s h))) kvs c q.2 (fun k x hx => hd k x (List.mem_cons_of_mem _ hx))
        revert h6
        generalize diveItems cfg step' c q.2 kvs = r
        intro h6
        refine EndsIn.andThen h6 ?_
        intro given2 z hg2 hz
        cases hz with
        | error e => exact like_err
        | ok q' hq' =>
          refine like_done ?_
          intro k' x' hx
          rcases List.mem_cons.1 hx with h | hx
          · cases h; exact hq
          · exact hq' k' x' hx
    · have h6 := diveItems_safe given hs kvs c s (fun k x hx => hd k x (List.mem_cons_of_mem _ hx))
      revert h6
      generalize diveItems cfg step' c s kvs = r
      intro h6
      refine EndsIn.andThen h6 ?_
      intro given2 z hg2 hz
      cases hz with
      | error e => exact like_err
      | ok q' hq' =>
        refine like_done ?_
        intro k' x' hx
        rcases List.mem_cons.1 hx with h | hx
        · cases h; exact hd k x (by simp)
        · exact hq' k' x' hx
end

end

theorem elementwise_safe (hf : SameFilters W J R R') (pandas : Bool) {ef : RunEFun} {ef' : EFun BookSheet} {given : List SheetObj}
    {l : Lasso SheetObj} {l' : Lasso BookSheet} (hl : SameLasso given l l') (hv : NoNumbers W J l'.values)
    (he : ∀ given1, (∀ s ∈ given, s ∈ given1) → ∀ bc d, NoNumbers W J d → EndsIn W (ElEnd W J) given1 (ef l bc d) (ef' l' bc d))
    (filters : List Doc) (incl excl : Option (List Str)) (depth : Option Int) :
    EndsIn W (SafeEnd W J) given (R.elementwise pandas ef filters incl excl depth l)
      ((R'.elementwise pandas ef' filters incl excl depth l').map .lasso) := by
  unfold RunRanger.elementwise Ranger.elementwise
  cases parseSubs filters with
  | error e => exact safe_done (.error _)
  | ok subs =>
    simp only
    have h1 : l.st = l'.st := by rw [hl.1]; rfl
    have h2 : l.values = l'.values := by rw [hl.1]; rfl
    rw [h1, h2]
    have h5 := dive_safe (cfg := ⟨included incl excl, depth, pandas⟩) (step := R.callElement ef l) (step' := R'.callElement ef' l') given
      (fun g hg s bc d hd => callElement_safe hf (lasso_mono hg hl) bc d (he g hg bc d hd) s) l'.values 0 l'.st subs hv
    revert h5
    generalize dive _ _ 0 l'.st subs l'.values = r
    intro h5
    refine EndsIn.andThen h5 ?_
    intro given1 y hg hy
    cases hy with
    | error e => exact safe_done (.error _)
    | ok q hq =>
      refine safe_done (.lasso _ _ ⟨?_, sheet_mono hg hl.2⟩ hq)
      conv => lhs; rw [hl.1]
      rfl

/-- A reference that names its sheet, if it is in the workbook of the context, by name. -/
theorem doLasso_safe (hW : ProperBooks W) (hf : SameFilters W J R R') (hR : R' = ⟨openAnew W, R.baseOpts, R'.filters⟩) {A : SheetApi SheetObj}
    {A' : SheetApi BookSheet} (hA : SameApi A A') (hcells : ∀ s st nd v, A'.readRect s st nd = .ok v → NoNumbers W J v.toDoc) (xlref : Str)
    {given : List SheetObj} {ctx : Lasso SheetObj} {ctx' : Lasso BookSheet} (hctx : SameLasso given ctx ctx')
    (hby : ∀ l, R'.parseMerge J xlref ctx' = .ok l → l.urlFile = none → ∀ u i t, l.sheet = some (u, i) → l.shName = some t → ByName W u t) :
    EndsIn W (SafeEnd W J) given (R.doLasso A J xlref ctx) (R'.doLasso A' J xlref ctx') := by
  intro order ho D given0 hg hD
  have hpm : (∃ e, (Ranger.mk (S := SheetObj) (fun _ _ _ => .error .valueError) R.baseOpts (fun _ => none)).parseMerge J xlref ctx = .error e ∧
        R'.parseMerge J xlref ctx' = .error e) ∨
      ∃ l l', (Ranger.mk (S := SheetObj) (fun _ _ _ => .error .valueError) R.baseOpts (fun _ => none)).parseMerge J xlref ctx = .ok l ∧
        R'.parseMerge J xlref ctx' = .ok l' ∧ SameLasso given l l' := by
    obtain ⟨h1, h2⟩ := hctx
    rw [hR]
    unfold Ranger.parseMerge
    cases parseXlref J xlref with
    | error e =>
      left
      cases e <;> exact ⟨_, rfl, rfl⟩
    | ok p =>
      simp only
      split
      · exact .inl ⟨_, rfl, rfl⟩
      · right
        refine ⟨_, _, rfl, rfl, ?_, h2⟩
        rw [h1]
        rfl
  unfold RunRanger.doLasso Ranger.doLasso
  simp only
  rcases hpm with ⟨e, h1, h2⟩ | ⟨l, l', h1, h2, hl⟩
  · simp only [h1, h2]
    exact ⟨given0, fun _ h => h, hD, .error _⟩
  · have hby' := hby l' h2
    have hfetch : R'.fetch = openAnew W := by rw [hR]
    simp only [h1, h2, hfetch]
    obtain ⟨hl1, hl2⟩ := hl
    generalize l.sheet = b at hl1 hl2
    subst hl1
    obtain ⟨given1, k1, k2, k3⟩ := fetch_anew hW hD ho l'.urlFile l'.shName (sheet_mono hg hl2) (fun h u i t h3 h4 => hby' h u i t h3 h4)
    simp only [Run.onDesk, onSheet]
    rcases k3 with ⟨e, h3, h4⟩ | ⟨s, url, i, h3, h4, h5, h6⟩
    · simp only [h3, h4]
      exact ⟨given1, k1, k2, .error _⟩
    · simp only [h3, h4]
      have hrr : ∀ l : Lasso SheetObj, resolveRect A l s = resolveRect A' (onSheet l (some (url, i))) (url, i) := by
        intro l
        unfold resolveRect
        rw [hA.states s url i h6, hA.margins s url i h6]
        rfl
      rw [hrr]
      simp only [onSheet]
      cases resolveRect A' { l' with sheet := some (url, i) } (url, i) with
      | error e => exact ⟨given1, k1, k2, .error _⟩
      | ok o =>
        cases o with
        | none =>
          obtain ⟨given2, j1, j2, j3⟩ := runFilters_safe hf
            (l := onSheet { l' with st := none, nd := none, values := .list [] } (some s))
            (l' := { l' with sheet := some (url, i), st := none, nd := none, values := .list [] })
            (given := given1) ⟨rfl, .some s url i h5 h6⟩ (numbers_list.2 (fun x hx => nomatch hx)) order ho _ given1 (fun _ h => h) k2
          exact ⟨given2, fun s hs => j1 s (k1 s hs), j2, j3⟩
        | some p =>
          obtain ⟨st, nd⟩ := p
          simp only [hA.readRect s url i h6]
          cases hr : A'.readRect (url, i) st nd with
          | error e => exact ⟨given1, k1, k2, .error _⟩
          | ok v =>
            obtain ⟨given2, j1, j2, j3⟩ := runFilters_safe hf
              (l := onSheet { l' with st := some st, nd := nd, values := v.toDoc } (some s))
              (l' := { l' with sheet := some (url, i), st := some st, nd := nd, values := v.toDoc })
              (given := given1) ⟨rfl, .some s url i h5 h6⟩ (hcells _ _ _ _ hr) order ho _ given1 (fun _ h => h) k2
            exact ⟨given2, fun s hs => j1 s (k1 s hs), j2, j3⟩

theorem recurse_safe (hW : ProperBooks W) (hf : SameFilters W J R R') (hR : R' = ⟨openAnew W, R.baseOpts, R'.filters⟩) {A : SheetApi SheetObj}
    {A' : SheetApi BookSheet} (hA : SameApi A A') (hcells : ∀ s st nd v, A'.readRect s st nd = .ok v → NoNumbers W J v.toDoc)
    {given : List SheetObj} {l : Lasso SheetObj} {l' : Lasso BookSheet} (hl : SameLasso given l l') (hv : NoNumbers W J l'.values)
    (bc : Option Coords) (d : Doc) (hd : NoNumbers W J d) :
    EndsIn W (ElEnd W J) given (recurseElementRun (R.doLasso A J) l bc d) (recurseElement (R'.doLasso A' J) l' bc d) := by
  have hno : EndsIn W (ElEnd W J) given (.done (.ok (false, .lasso l))) (.ok (false, .lasso l')) :=
    EndsIn.done (fun _ h => .ok _ _ _ (.lasso _ _ (lasso_mono h hl) hv))
  unfold recurseElementRun recurseElement
  cases d with
  | str t =>
    simp only
    have h1 : l.st = l'.st := by rw [hl.1]; rfl
    have h2 : l.nd = l'.nd := by rw [hl.1]; rfl
    have h5 := doLasso_safe hW hf hR hA hcells t (ctx := { sheet := l.sheet, st := l.st, nd := l.nd, baseCoords := bc })
      (ctx' := { sheet := l'.sheet, st := l'.st, nd := l'.nd, baseCoords := bc }) (given := given)
      ⟨by rw [h1, h2]; rfl, hl.2⟩ (by
        intro m hm hu u i n hs hn
        unfold Ranger.parseMerge at hm
        simp only at hm
        cases hp : parseXlref J t with
        | error e => rw [hp] at hm; cases e <;> cases hm
        | ok p =>
          rw [hp] at hm
          simp only at hm
          split at hm
          · cases hm
          · cases hm
            simp only [overlay] at hu hn
            refine hd t .here p hp ?_ n ?_ u
            · revert hu; cases p.urlFile <;> simp
            · revert hn; cases p.frag.shName <;> simp)
    revert h5
    generalize R'.doLasso A' J t _ = r'
    intro h5
    refine EndsIn.andThen h5 ?_
    intro given1 x hg hx
    refine EndsIn.done ?_
    intro given0 h0
    rcases safe_cases hx with ⟨e, rfl, rfl⟩ | ⟨a, a', rfl, rfl, ha⟩
    · cases e <;> first
        | exact .error _
        | exact .ok _ _ _ (.lasso _ _ (lasso_mono (fun s hs => h0 s (hg s hs)) hl) hv)
    · exact .ok _ _ _ (safe_mono h0 ha)
  | null => exact hno
  | bool b => exact hno
  | int i => exact hno
  | atom t => exact hno
  | list xs => exact hno
  | dict kvs => exact hno

theorem pyeval_safe {e : Evaluator SheetObj} {e' : Evaluator BookSheet}
    (he : ∀ given l l', SameLasso given l l' → NoNumbers W J l'.values → ∀ t bc, (e t l bc = none ∧ e' t l' bc = none) ∨
        ∃ r r', e t l bc = some r ∧ e' t l' bc = some r' ∧ SafeEnd W J given (.ok r) (.ok r')) (evalAll : Bool)
    {given : List SheetObj} {l : Lasso SheetObj} {l' : Lasso BookSheet} (hl : SameLasso given l l') (hv : NoNumbers W J l'.values)
    (bc : Option Coords) (d : Doc) :
    EndsIn W (ElEnd W J) given (.done (pyevalElement e evalAll l bc d)) (pyevalElement e' evalAll l' bc d) := by
  refine EndsIn.done ?_
  intro given0 h0
  have hl0 := lasso_mono h0 hl
  have hno : ElEnd W J given0 (.ok (false, .lasso l)) (.ok (false, .lasso l')) := .ok _ _ _ (.lasso _ _ hl0 hv)
  unfold pyevalElement
  cases d with
  | str t =>
    simp only
    rcases he given0 l l' hl0 hv t bc with ⟨h1, h2⟩ | ⟨r, r', h1, h2, h3⟩
    · simp only [h1, h2]
      split
      · exact .error _
      · exact hno
    · simp only [h1, h2]
      have ho : l.opts = l'.opts := by rw [hl.1]; rfl
      refine .ok _ _ _ ?_
      cases h3 with
      | lasso a a' ha hva =>
        have hoa : a.opts = a'.opts := by rw [ha.1]; rfl
        unfold evaluated
        simp only [hoa, ho]
        split
        · refine .lasso _ _ ⟨?_, ha.2⟩ hva
          conv => lhs; rw [ha.1]
          rfl
        · exact .lasso _ _ ha hva
      | other x hx =>
        refine .lasso _ _ ⟨?_, hl0.2⟩ hx
        show { l with values := x } = _
        conv => lhs; rw [hl0.1]
        rfl
  | null => exact hno
  | bool b => exact hno
  | int i => exact hno
  | atom t => exact hno
  | list xs => exact hno
  | dict kvs => exact hno

theorem ranger_safe (hW : ProperBooks W) {U : RunSetup} {U' : Setup BookSheet} (hU : SameSetup W U U') :
    ∀ n, U'.ranger n = ⟨openAnew W, (U.ranger n).baseOpts, (U'.ranger n).filters⟩ ∧ SameFilters W U.jsonLoads (U.ranger n) (U'.ranger n) := by
  intro n
  induction n with
  | zero =>
    refine ⟨?_, ?_⟩
    · simp only [Setup.ranger, RunSetup.ranger, hU.fetch, hU.baseOpts]
    · intro f
      simp only [Setup.ranger, RunSetup.ranger]
      rcases hU.filters f with ⟨h1, h2⟩ | ⟨k, k', desc, h1, h2, -⟩
      · left; simp only [h1, h2]; exact ⟨rfl, rfl⟩
      · right
        simp only [h1, h2]
        exact ⟨_, _, rfl, rfl, rfl, fun _ _ _ _ _ _ _ => safe_done (.error _)⟩
  | succ n ih =>
    refine ⟨?_, ?_⟩
    · simp only [Setup.ranger, RunSetup.ranger, hU.fetch, hU.baseOpts]
    · intro f
      simp only [Setup.ranger, RunSetup.ranger]
      rcases hU.filters f with ⟨h1, h2⟩ | ⟨k, k', desc, h1, h2, h3⟩
      · left; simp only [h1, h2]; exact ⟨rfl, rfl⟩
      · right
        simp only [h1, h2]
        refine ⟨_, _, rfl, rfl, rfl, ?_⟩
        intro given l l' hl hv args kwds
        simp only [hU.jsonLoads, hU.pandas]
        cases h3 with
        | pipe => exact pipe_safe ih.2 args (.lasso _ _ hl hv)
        | recurse =>
          simp only [RunKind.func, FilterKind.func]
          cases elementArgs recurseNames args kwds with
          | error e => exact safe_done (.error _)
          | ok a =>
            exact elementwise_safe ih.2 _ hl hv (fun g hg bc d hd =>
              recurse_safe hW ih.2 ih.1 hU.api hU.cells (lasso_mono hg hl) hv bc d hd) _ _ _ _
        | pyeval e e' he =>
          simp only [RunKind.func, FilterKind.func]
          cases elementArgs pyevalNames args kwds with
          | error e => exact safe_done (.error _)
          | ok a => exact elementwise_safe ih.2 _ hl hv (fun g hg bc d _ => pyeval_safe he _ (lasso_mono hg hl) hv bc d) _ _ _ _
        | own f f' h => exact h given l l' hl hv args kwds

end
end Lemmas
