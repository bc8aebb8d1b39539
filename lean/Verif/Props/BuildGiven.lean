import Verif.Spec.BuildGiven
import Verif.Props.Pandel
import Verif.Props.Combined
import Verif.Lemmas.Pandel
/-
C121: what the submodels give is in the model that is built.
-/
namespace Props
open Py Model Spec

private theorem gives_nil {d v : Doc} : GivesAt d [] v ↔ d = v := by
  constructor
  · intro h; cases h; rfl
  · rintro rfl; exact .here _

private theorem gives_cons {d v : Doc} {k : Str} {p : List Str} :
    GivesAt d (k :: p) v ↔ ∃ kvs x, d = .dict kvs ∧ dget kvs k = some x ∧ GivesAt x p v := by
  constructor
  · intro h; cases h with | inside kvs _ x _ _ h1 h2 => exact ⟨kvs, x, rfl, h1, h2⟩
  · rintro ⟨kvs, x, rfl, h1, h2⟩; exact .inside _ _ _ _ _ h1 h2

private theorem dictOrEmpty_get {a : Doc} {as : List (Str × Doc)} (h : dictOrEmpty a = .ok as) (k : Str) (p : List Str) (v : Doc) :
    GivesAt a (k :: p) v ↔ ∃ x, dget as k = some x ∧ GivesAt x p v := by
  rw [gives_cons]
  cases a with
  | dict kvs =>
    simp only [dictOrEmpty, Except.ok.injEq] at h
    subst h
    constructor
    · rintro ⟨_, x, e, h⟩; cases e; exact ⟨x, h⟩
    · rintro ⟨x, h⟩; exact ⟨_, x, rfl, h⟩
  | null =>
    simp only [dictOrEmpty, Except.ok.injEq] at h
    subst h
    constructor
    · rintro ⟨_, x, e, h⟩; cases e
    · rintro ⟨x, h, _⟩; cases h
  | _ => simp [dictOrEmpty] at h

private theorem keysOk_dictOrEmpty {a : Doc} {as : List (Str × Doc)} (h : dictOrEmpty a = .ok as) (ha : KeysOk a) (k : Str) (x : Doc)
    (hx : dget as k = some x) : KeysOk x := by
  cases a with
  | dict kvs =>
    simp only [dictOrEmpty, Except.ok.injEq] at h
    subst h
    exact (keysOk_dict ha).2 k x hx
  | null =>
    simp only [dictOrEmpty, Except.ok.injEq] at h
    subst h
    cases hx
  | _ => simp [dictOrEmpty] at h

private theorem silent_dict {bs : List (Str × Doc)} {k : Str} {p : List Str} :
    Silent (.dict bs) (k :: p) ↔ dget bs k = none ∨ ∃ y, dget bs k = some y ∧ Silent y p := by
  constructor
  · intro h
    cases h with
    | missing _ _ _ h => exact .inl h
    | inside _ _ x _ h1 h2 => exact .inr ⟨x, h1, h2⟩
  · rintro (h | ⟨y, h1, h2⟩)
    · exact .missing _ _ _ h
    · exact .inside _ _ _ _ h1 h2

private theorem merge_gives (p : List Str) (v : Doc) (hv : Scalar v) : ∀ (a b c : Doc), KeysOk a → KeysOk b → mergeDoc a b = .ok c →
    ((∃ s, v = .str s) → ¬ ∃ xs, GivesAt a p (.list xs)) →
    (GivesAt c p v ↔ GivesAt b p v ∨ Silent b p ∧ GivesAt a p v) := by
  induction p with
  | nil =>
    intro a b c ha hb h hl
    simp only [gives_nil] at hl ⊢
    rcases mergeDoc_cases h with ⟨rfl, rfl, _⟩ | ⟨bs, as, cs, rfl, _, _, rfl⟩ | ⟨ys, rfl, _, rfl, _⟩ |
      ⟨s, rfl, _, h⟩ | ⟨h1, h2, h3, _, _, _, rfl⟩
    · constructor
      · intro h; exact .inr ⟨.null _, h⟩
      · rintro (rfl | ⟨_, h⟩)
        · cases hv
        · exact h
    · constructor
      · rintro rfl; cases hv
      · rintro (rfl | ⟨h, _⟩)
        · cases hv
        · cases h
    · constructor
      · rintro rfl; cases hv
      · rintro (rfl | ⟨h, _⟩)
        · cases hv
        · cases h
    · rcases h with ⟨⟨xs, rfl⟩, rfl⟩ | ⟨_, rfl⟩
      · constructor
        · rintro rfl; cases hv
        · rintro (rfl | ⟨h, _⟩)
          · exact absurd ⟨xs, rfl⟩ (hl ⟨s, rfl⟩)
          · cases h
      · constructor
        · rintro rfl; exact .inl rfl
        · rintro (rfl | ⟨h, _⟩)
          · rfl
          · cases h
    · constructor
      · intro h; exact .inl h
      · rintro (h | ⟨h, _⟩)
        · exact h
        · cases h; exact absurd rfl h1
  | cons k p ih =>
    intro a b c ha hb h hl
    rcases mergeDoc_cases h with ⟨rfl, rfl, _⟩ | ⟨bs, as, cs, rfl, hd, hm, rfl⟩ | ⟨ys, rfl, _, rfl, _⟩ |
      ⟨s, rfl, _, h⟩ | ⟨h1, h2, h3, h4, _, _, rfl⟩
    · constructor
      · intro h; exact .inr ⟨.null _, h⟩
      · rintro (h | ⟨_, h⟩)
        · cases h
        · exact h
    · obtain ⟨hnd, hks⟩ := keysOk_dict hb
      have hg := (mergeItems_get bs as cs hnd hm).1 k
      rw [dictOrEmpty_get hd k p v, silent_dict]
      have hc : GivesAt (.dict cs) (k :: p) v ↔ ∃ x, dget cs k = some x ∧ GivesAt x p v := by
        rw [gives_cons]
        constructor
        · rintro ⟨_, x, e, h⟩; cases e; exact ⟨x, h⟩
        · rintro ⟨x, h⟩; exact ⟨_, x, rfl, h⟩
      have hb' : GivesAt (.dict bs) (k :: p) v ↔ ∃ x, dget bs k = some x ∧ GivesAt x p v := by
        rw [gives_cons]
        constructor
        · rintro ⟨_, x, e, h⟩; cases e; exact ⟨x, h⟩
        · rintro ⟨x, h⟩; exact ⟨_, x, rfl, h⟩
      rw [hc, hb']
      cases e1 : dget as k with
      | none =>
        cases e2 : dget bs k with
        | none =>
          rw [e1, e2] at hg
          rw [map_ok_none hg]
          simp
        | some y =>
          rw [e1, e2] at hg
          rw [map_ok_some hg]
          simp
      | some x =>
        cases e2 : dget bs k with
        | none =>
          rw [e1, e2] at hg
          rw [map_ok_some hg]
          simp
        | some y =>
          rw [e1, e2] at hg
          simp only [mergeOptDoc] at hg
          cases e3 : dget cs k with
          | none => rw [e3] at hg; cases hg
          | some z =>
            rw [e3] at hg
            simp only [Option.map_some, Option.some.injEq] at hg
            have hih := ih x y z (keysOk_dictOrEmpty hd ha k x e1) (hks k y e2) hg.symm (by
              intro hs
              rintro ⟨xs, hx⟩
              exact hl hs ⟨xs, (dictOrEmpty_get hd k p _).2 ⟨x, e1, hx⟩⟩)
            simpa using hih
    · constructor
      · intro h; cases h
      · rintro (h | ⟨h, _⟩) <;> cases h
    · constructor
      · intro h'
        rcases h with ⟨_, rfl⟩ | ⟨_, rfl⟩ <;> cases h'
      · rintro (h | ⟨h, _⟩) <;> cases h
    · constructor
      · intro h; exact .inl h
      · rintro (h | ⟨h, _⟩)
        · exact h
        · cases h with
          | null => exact absurd rfl h1
          | missing => exact absurd trivial h2
          | inside => exact absurd trivial h2

private theorem merge_lists (p : List Str) : ∀ (a b c : Doc), KeysOk a → KeysOk b → mergeDoc a b = .ok c →
    (∃ xs, GivesAt c p (.list xs)) → (∃ xs, GivesAt a p (.list xs)) ∨ ∃ xs, GivesAt b p (.list xs) := by
  induction p with
  | nil =>
    intro a b c ha hb h hl
    simp only [gives_nil] at hl ⊢
    obtain ⟨zs, rfl⟩ := hl
    rcases mergeDoc_cases h with ⟨rfl, rfl, _⟩ | ⟨bs, as, cs, rfl, _, _, e⟩ | ⟨ys, rfl, _, e, _⟩ |
      ⟨s, rfl, _, h⟩ | ⟨h1, h2, h3, _, _, _, rfl⟩
    · exact .inl ⟨_, rfl⟩
    · cases e
    · exact .inr ⟨_, rfl⟩
    · rcases h with ⟨h, _⟩ | ⟨_, e⟩
      · exact .inl h
      · cases e
    · exact .inr ⟨_, rfl⟩
  | cons k p ih =>
    intro a b c ha hb h hl
    obtain ⟨zs, hz⟩ := hl
    rcases mergeDoc_cases h with ⟨rfl, rfl, _⟩ | ⟨bs, as, cs, rfl, hd, hm, rfl⟩ | ⟨ys, rfl, _, rfl, _⟩ |
      ⟨s, rfl, _, h⟩ | ⟨h1, h2, h3, h4, _, _, rfl⟩
    · exact .inl ⟨_, hz⟩
    · obtain ⟨hnd, hks⟩ := keysOk_dict hb
      have hg := (mergeItems_get bs as cs hnd hm).1 k
      obtain ⟨_, z, e, hk, hz⟩ := gives_cons.1 hz
      cases e
      rw [hk] at hg
      cases e1 : dget as k with
      | none =>
        cases e2 : dget bs k with
        | none => rw [e1, e2] at hg; cases hg
        | some y =>
          rw [e1, e2] at hg
          cases hg
          exact .inr ⟨zs, .inside _ _ _ _ _ e2 hz⟩
      | some x =>
        cases e2 : dget bs k with
        | none =>
          rw [e1, e2] at hg
          cases hg
          exact .inl ⟨zs, (dictOrEmpty_get hd k p _).2 ⟨_, e1, hz⟩⟩
        | some y =>
          rw [e1, e2] at hg
          simp only [mergeOptDoc, Option.map_some, Option.some.injEq] at hg
          rcases ih x y z (keysOk_dictOrEmpty hd ha k x e1) (hks k y e2) hg.symm ⟨zs, hz⟩ with ⟨xs, h⟩ | ⟨xs, h⟩
          · exact .inl ⟨xs, (dictOrEmpty_get hd k p _).2 ⟨_, e1, h⟩⟩
          · exact .inr ⟨xs, .inside _ _ _ _ _ e2 h⟩
    · cases hz
    · rcases h with ⟨_, rfl⟩ | ⟨_, rfl⟩ <;> cases hz
    · exact .inr ⟨_, hz⟩

private theorem lastGiven_cons {p : List Str} {v d : Doc} {ds : List Doc} :
    LastGiven p v (d :: ds) ↔ LastGiven p v ds ∨ GivesAt d p v ∧ ∀ e ∈ ds, Silent e p := by
  constructor
  · intro h
    generalize hl : d :: ds = l at h
    cases h with
    | last before e after h1 h2 =>
      cases before with
      | nil => cases hl; exact .inr ⟨h1, h2⟩
      | cons x xs => cases hl; exact .inl (.last xs e after h1 h2)
  · rintro (h | ⟨h1, h2⟩)
    · cases h with
      | last before e after h1 h2 => exact .last (d :: before) e after h1 h2
    · exact .last [] d ds h1 h2

private theorem mergedAll_gives (p : List Str) (v : Doc) (hv : Scalar v) {m u : Doc} {ds : List Doc} (h : MergedAll m ds u) :
    KeysOk m → (∀ d ∈ ds, KeysOk d) → ((∃ s, v = .str s) → ∀ d ∈ m :: ds, ¬ ∃ xs, GivesAt d p (.list xs)) →
    (GivesAt u p v ↔ LastGiven p v ds ∨ (∀ d ∈ ds, Silent d p) ∧ GivesAt m p v) := by
  induction h with
  | done m =>
    intro _ _ _
    constructor
    · intro h; exact .inr ⟨by simp, h⟩
    · rintro (h | ⟨_, h⟩)
      · generalize hl : ([] : List Doc) = l at h
        cases h with
        | last before e after => simp at hl
      · exact h
  | step m d ds m' u hm _ ih =>
    intro hk hks hl
    have hk' := merge_keysOk d m m' hk (hks d (by simp)) hm
    have hstep := merge_gives p v hv m d m' hk (hks d (by simp)) hm (fun hs => hl hs m (by simp))
    rw [ih hk' (fun e he => hks e (by simp [he])) ?_, lastGiven_cons, hstep]
    · constructor
      · rintro (h | ⟨h1, h2 | ⟨h2, h3⟩⟩)
        · exact .inl (.inl h)
        · exact .inl (.inr ⟨h2, h1⟩)
        · refine .inr ⟨?_, h3⟩
          intro e he
          rcases List.mem_cons.1 he with rfl | he
          · exact h2
          · exact h1 e he
      · rintro ((h | ⟨h1, h2⟩) | ⟨h1, h2⟩)
        · exact .inl h
        · exact .inr ⟨h2, .inl h1⟩
        · exact .inr ⟨fun e he => h1 e (by simp [he]), .inr ⟨h1 d (by simp), h2⟩⟩
    · intro hs e he
      rcases List.mem_cons.1 he with rfl | he
      · intro hx
        rcases merge_lists p m d e hk (hks d (by simp)) hm hx with h | h
        · exact hl hs m (by simp) h
        · exact hl hs d (by simp) h
      · exact hl hs e (by simp [he])

/-- C121: what the submodels merge into has at a path of keys exactly the scalar that the last submodel gives that says anything
about the path. Missing: texts where there was a list before (C25). -/
theorem C121_merged_partial (subs : List Doc) (hk : ∀ d ∈ subs, KeysOk d) (u : Doc) (h : MergedAll .null subs u) (p : List Str) (v : Doc)
    (hv : Scalar v) (ht : ¬ TextAndList subs p v) : GivesAt u p v ↔ LastGiven p v subs := by
  rw [mergedAll_gives p v hv h .null hk ?_]
  · constructor
    · rintro (h | ⟨_, h⟩)
      · exact h
      · cases p with
        | nil => cases h; cases hv
        | cons k p => cases h
    · exact .inl
  · intro hs d hd
    rcases List.mem_cons.1 hd with rfl | hd
    · rintro ⟨xs, h⟩; cases h
    · intro hx; exact ht ⟨hs, d, hd, hx⟩

private theorem gives_placed {d v : Doc} {p : List Str} : GivesAt d p v ↔ placed (p.map .key) d = some v := by
  induction p generalizing d with
  | nil => rw [gives_nil]; simp [placed]
  | cons k p ih =>
    rw [gives_cons]
    cases d with
    | dict kvs =>
      simp only [List.map_cons, placed]
      cases hk : dget kvs k with
      | none => simp [hk]
      | some x =>
        simp only [← ih]
        constructor
        · rintro ⟨_, x, e, h1, h2⟩; cases e; rw [hk] at h1; cases h1; exact h2
        · intro h; exact ⟨_, x, rfl, hk, h⟩
    | _ => simp [placed]

private theorem sameKind_scalar {v w : Doc} (hv : Scalar v) (h : SameKind v w) : w = v := by
  cases h with
  | scalar => rfl
  | object => cases hv
  | list => cases hv

/-- C121: a scalar, given by a submodel for a path about which no later one says anything, is in the model that is built, if the
prevalidation leaves the submodels as they are. Missing: prevalidations that fill in defaults, texts where there was a list before. -/
theorem C121_built_partial (f : VFlags) (defs : Str → Option CSchema) (n : Nat) (pre post : CSchema) (subs : List Doc) (m : Doc)
    (hk : ∀ d ∈ subs, KeysOk d) (hp : ∀ d ∈ subs, (visitC f defs n false pre d).doc = d)
    (hb : build (combinedMaker f defs n pre post) subs = .ok m) (p : List Str) (v : Doc) (hv : Scalar v)
    (hn : ¬ IsNull f.toAutoFlags v) (ht : ¬ TextAndList subs p v) (hl : LastGiven p v subs) : GivesAt m p v := by
  rw [C27_model] at hb
  obtain ⟨_, u, h1, _, _, h3⟩ := hb
  simp only [combinedMaker, if_true] at h1 h3
  cases h3
  have hsubs : subs.map (fun d => (visitC f defs n false pre d).doc) = subs := by
    refine (List.map_congr_left hp).trans ?_
    simp
  rw [hsubs] at h1
  have hu := (C121_merged_partial subs hk u h1 p v hv ht).2 hl
  rw [gives_placed] at hu ⊢
  obtain ⟨w, hw, hs⟩ := C110_given f defs n false post u (p.map .key) v hu hn
  rw [sameKind_scalar hv hs] at hw
  exact hw

/-- C121, the other way round: a scalar in the model that is built is the one that the submodels give last, or else in what they merge
into there is nothing at its path, or a null: then the validation has added it. -/
theorem C121_origin_partial (f : VFlags) (defs : Str → Option CSchema) (n : Nat) (pre post : CSchema) (subs : List Doc) (m : Doc)
    (hk : ∀ d ∈ subs, KeysOk d) (hp : ∀ d ∈ subs, (visitC f defs n false pre d).doc = d)
    (hb : build (combinedMaker f defs n pre post) subs = .ok m) (p : List Str) (v : Doc) (hv : Scalar v)
    (ht : ¬ TextAndList subs p v) (hg : GivesAt m p v) :
    LastGiven p v subs ∨ ∃ u, MergedAll .null subs u ∧ ∀ x, GivesAt u p x → IsNull f.toAutoFlags x := by
  rw [C27_model] at hb
  obtain ⟨_, u, h1, _, _, h3⟩ := hb
  simp only [combinedMaker, if_true] at h1 h3
  cases h3
  have hsubs : subs.map (fun d => (visitC f defs n false pre d).doc) = subs := by
    refine (List.map_congr_left hp).trans ?_
    simp
  rw [hsubs] at h1
  by_cases hx : ∀ x, GivesAt u p x → IsNull f.toAutoFlags x
  · exact .inr ⟨u, h1, hx⟩
  · left
    obtain ⟨x, hx⟩ := Classical.not_forall.1 hx
    obtain ⟨hx, hn⟩ := Classical.not_imp.1 hx
    obtain ⟨w, hw, hs⟩ := C110_given f defs n false post u (p.map .key) x (gives_placed.1 hx) hn
    have e : w = v := Option.some.inj (hw.symm.trans (gives_placed.1 hg))
    subst e
    have hxw : x = w := by
      cases hs with
      | scalar => rfl
      | object => cases hv
      | list => cases hv
    subst hxw
    exact (C121_merged_partial subs hk u h1 p x hv ht).1 hx

/-! ### Prevalidations that leave submodels as they are -/

private theorem dset_given {kvs : List (Str × Doc)} {k : Str} {v : Doc} (h : dget kvs k = some v) : dset kvs k v = kvs := by
  induction kvs with
  | nil => cases h
  | cons kv t ih =>
    obtain ⟨k', v'⟩ := kv
    rw [dget_cons] at h
    simp only [dset]
    by_cases e : k' = k
    · rw [if_pos e] at h ⊢
      cases h
      rfl
    · rw [if_neg e] at h ⊢
      rw [ih h]

private theorem idle_runAll {α : Type} (lazy : Bool) (body : α → Doc → Res) : ∀ (as : List α),
    (∀ a ∈ as, ∀ d, (body a d).doc = d) → ∀ d, (runAll lazy body as d).doc = d := by
  intro as
  induction as with
  | nil => intro _ d; rfl
  | cons a as ih =>
    intro h d
    simp only [runAll, andThen]
    split
    · exact h a (by simp) d
    · exact (ih (fun b hb => h b (by simp [hb])) _).trans (h a (by simp) d)

private theorem idle_atKey {k : Str} {visit : Doc → Res} (h : ∀ d, (visit d).doc = d) (d : Doc) : (atKey k visit d).doc = d := by
  unfold atKey
  cases d with
  | dict kvs =>
    cases hg : dget kvs k with
    | none => simp only [hg]
    | some v => simp only [hg, h, dset_given hg]
  | _ => rfl

private theorem idle_atItem {i : Nat} {visit : Doc → Res} (h : ∀ d, (visit d).doc = d) (d : Doc) : (atItem i visit d).doc = d := by
  unfold atItem
  cases d with
  | list xs =>
    cases hg : xs[i]? with
    | none => simp only [hg]
    | some v =>
      simp only [hg, h]
      obtain ⟨hi, e⟩ := List.getElem?_eq_some_iff.1 hg
      rw [← e, List.set_getElem_self]
  | _ => rfl

private theorem idle_anyOf {visit : Bool → CSchema → Doc → Res} : ∀ (ss : List CSchema),
    (∀ s ∈ ss, ∀ lazy d, (visit lazy s d).doc = d) → ∀ d, (anyOfRun visit ss d).doc = d := by
  intro ss
  induction ss with
  | nil => intro _ d; rfl
  | cons s ss ih =>
    intro h d
    simp only [anyOfRun]
    have hs := h s (by simp) false d
    split
    · exact hs
    · split
      · exact hs
      · exact (ih (fun b hb => h b (by simp [hb])) _).trans hs

private theorem idle_others {visit : Bool → CSchema → Doc → Res} : ∀ (ss : List CSchema) (found : Bool),
    (∀ s ∈ ss, ∀ lazy d, (visit lazy s d).doc = d) → ∀ d, (othersRun visit found ss d).doc = d := by
  intro ss
  induction ss with
  | nil => intro _ _ d; rfl
  | cons s ss ih =>
    intro found h d
    simp only [othersRun]
    have hs := h s (by simp) true d
    split
    · exact hs
    · exact (ih _ (fun b hb => h b (by simp [hb])) _).trans hs

private theorem idle_oneOf {visit : Bool → CSchema → Doc → Res} : ∀ (ss : List CSchema),
    (∀ s ∈ ss, ∀ lazy d, (visit lazy s d).doc = d) → ∀ d, (oneOfRun visit ss d).doc = d := by
  intro ss
  induction ss with
  | nil => intro _ d; rfl
  | cons s ss ih =>
    intro h d
    simp only [oneOfRun]
    have hs := h s (by simp) false d
    have hr := fun (b : CSchema) (hb : b ∈ ss) => h b (List.mem_cons_of_mem _ hb)
    split
    · exact hs
    · split
      · exact (idle_others ss false hr _).trans hs
      · exact (ih hr _).trans hs

private theorem on_iff {a b : Option Bool} : firstDefined a b = true ↔ On a b := by
  cases a with
  | none => cases b <;> simp [firstDefined, On]
  | some x => cases x <;> simp [firstDefined, On]

private theorem idle_step (f : AutoFlags) (kvs : List (Str × Doc)) (k : Str) (s : PSchema) (hd : s.default = none)
    (hr : ¬ On s.autoRemoveNull f.autoRemoveNulls) : autoDefaultStep f kvs k s = kvs := by
  have hr' : firstDefined s.autoRemoveNull f.autoRemoveNulls = false := by
    cases h : firstDefined s.autoRemoveNull f.autoRemoveNulls with
    | false => rfl
    | true => exact absurd (on_iff.1 h) hr
  simp [autoDefaultStep, hd, hr']

private theorem idle_fill (f : VFlags) : ∀ (ps : List (Str × CSchema)) (kvs : List (Str × Doc)),
    (∀ k t, (k, t) ∈ ps → t.default = none ∧ ¬ On t.head.autoRemoveNull f.autoRemoveNulls) → fillC f ps kvs = kvs := by
  intro ps kvs h
  unfold fillC
  split
  · induction ps with
    | nil => rfl
    | cons p ps ih =>
      obtain ⟨k, t⟩ := p
      obtain ⟨h1, h2⟩ := h k t (by simp)
      have hd : t.head.default = none := by cases t; exact h1
      simp only [List.map_cons, autoDefaultLoop]
      rw [idle_step f.toAutoFlags kvs k t.head hd h2]
      exact ih (fun k t ht => h k t (by simp [ht]))
  · rfl

/-- C121: a prevalidation leaves submodels as they are if its schema has no defaults and asks for no removal of nulls. -/
theorem C121_prevalidation (f : VFlags) (defs : Str → Option CSchema) : ∀ (n : Nat) (lazy : Bool) (s : CSchema),
    (∀ k v, ¬ DefaultIn defs s k v) → ¬ RemovalIn f defs s → ∀ d, (visitC f defs n lazy s d).doc = d := by
  intro n
  induction n with
  | zero => intro lazy s _ _ d; rfl
  | succ n ih =>
    intro lazy s h1 h2 d
    rw [visitC]
    refine idle_runAll lazy _ _ ?_ d
    intro kw hkw d
    have sub : ∀ t, PartOfC defs s t → ∀ lazy d, (visitC f defs n lazy t d).doc = d :=
      fun t ht lazy d => ih lazy t (fun k v h => h1 k v (.inside _ _ _ _ ht h)) (fun h => h2 (.inside _ _ ht h)) d
    cases kw with
    | check p => rfl
    | properties ps =>
      simp only [kwRun]
      cases d with
      | dict kvs =>
        have hf : fillC f ps kvs = kvs := by
          refine idle_fill f ps kvs (fun k t ht => ⟨?_, fun h => h2 (.here _ _ _ _ hkw ht h)⟩)
          cases hd : t.default with
          | none => rfl
          | some v => exact absurd (.here _ _ _ _ _ hkw ht hd) (h1 k v)
        refine Eq.trans ?_ (congrArg Doc.dict hf)
        exact idle_runAll lazy _ _ (fun p hp d => idle_atKey (fun d => sub p.2 (.property _ ps p.1 _ hkw hp) lazy d) d) _
      | _ => rfl
    | keyed sel t =>
      simp only [kwRun]
      cases d with
      | dict kvs => exact idle_runAll lazy _ _ (fun k _ d => idle_atKey (fun d => sub t (.keyed _ _ _ hkw) lazy d) d) _
      | _ => rfl
    | items t =>
      simp only [kwRun]
      cases d with
      | list xs => exact idle_runAll lazy _ _ (fun k _ d => idle_atItem (fun d => sub t (.items _ _ hkw) lazy d) d) _
      | _ => rfl
    | allOf ss => exact idle_runAll lazy _ _ (fun t ht d => sub t (.allOf _ _ _ hkw ht) lazy d) _
    | anyOf ss => exact idle_anyOf ss (fun t ht lazy d => sub t (.anyOf _ _ _ hkw ht) lazy d) d
    | oneOf ss => exact idle_oneOf ss (fun t ht lazy d => sub t (.oneOf _ _ _ hkw ht) lazy d) d
    | not t => exact sub t (.not _ _ hkw) true d
    | cond c t e =>
      simp only [kwRun]
      have hc := sub c (.cond _ _ _ _ _ hkw (.inl rfl)) true d
      split
      · exact hc
      · split
        · exact (sub t (.cond _ _ _ _ _ hkw (.inr (.inl rfl))) lazy _).trans hc
        · exact (sub e (.cond _ _ _ _ _ hkw (.inr (.inr rfl))) lazy _).trans hc
    | ref name =>
      simp only [kwRun]
      cases hd : defs name with
      | none => rfl
      | some t => exact sub t (.ref _ _ _ hkw hd) lazy d

/-! ### Examples -/

/-- The default arguments of `PandelVisitor`. -/
private def defaultFlags : VFlags := ⟨⟨some true, some false, some false, fun _ => false⟩, fun _ => true⟩

private def nothing : Str → Option CSchema := fun _ => none

/-- `{}` -/
private def anything : CSchema := .mk [] false none none none none

/-- `{"properties": {"a": {"default": 1}, "b": {"default": 2}}}` -/
private def withDefaults : CSchema :=
  .mk [.properties [("a".toList, .mk [] false (some (.int 1)) none none none), ("b".toList, .mk [] false (some (.int 2)) none none none)]]
    false none none none none

/-- The base model gives `a`, the one on top of it `c`. -/
private def stack : List Doc := [.dict [("a".toList, .int 5)], .dict [("c".toList, .str "x".toList)]]

private theorem stack_a : LastGiven ["a".toList] (.int 5) stack := by
  refine .last [] _ _ (.inside _ _ _ _ _ rfl (.here _)) ?_
  intro e he
  obtain rfl : e = .dict [("c".toList, .str "x".toList)] := by simpa using he
  exact .missing _ _ _ (by decide +kernel)

example : build (combinedMaker defaultFlags nothing 9 anything withDefaults) stack
    = .ok (.dict [("a".toList, .int 5), ("c".toList, .str "x".toList), ("b".toList, .int 2)]) := rfl

example : ∀ d ∈ stack, (visitC defaultFlags nothing 9 false anything d).doc = d := fun _ _ => rfl

example : (∀ k v, ¬ DefaultIn nothing anything k v) ∧ ¬ RemovalIn defaultFlags nothing anything := by
  have hp : ∀ t, ¬ PartOfC nothing anything t := by
    intro t h
    cases h <;> simp_all [anything, CSchema.kws]
  constructor
  · intro k v h
    cases h with
    | here _ _ _ _ _ h => simp [anything, CSchema.kws] at h
    | inside _ _ _ _ h => exact hp _ h
  · intro h
    cases h with
    | here _ _ _ _ h => simp [anything, CSchema.kws] at h
    | inside _ _ h => exact hp _ h

/-- C121 is false: if the same schema is used for both validations, a default fills the model on top, and overrides there what the base
model gives. -/
theorem C121_refuted : LastGiven ["a".toList] (.int 5) stack ∧ ∃ m, build (combinedMaker defaultFlags nothing 9 withDefaults withDefaults) stack
    = .ok m ∧ GivesAt m ["a".toList] (.int 1) ∧ ¬ GivesAt m ["a".toList] (.int 5) := by
  refine ⟨stack_a, .dict [("a".toList, .int 1), ("b".toList, .int 2), ("c".toList, .str "x".toList)], rfl,
    .inside _ _ _ _ _ (by rfl) (.here _), ?_⟩
  intro h
  obtain ⟨_, x, e, h1, h2⟩ := gives_cons.1 h
  cases e
  cases h1
  cases h2

end Props
