import Verif.Spec.VisitPandas
import Verif.Props.Visitor
set_option linter.unusedSimpArgs false
/-
Validations of documents with *pandas* objects, keyword by keyword.
-/
namespace Lemmas
open Py Model Spec Props

theorem bothErrs_nil {α : Type} {a b : Option (List α)} : bothErrs a b = some [] ↔ a = some [] ∧ b = some [] := by
  unfold bothErrs
  split
  · simp
  · rename_i h
    constructor
    · intro hh; cases hh
    · rintro ⟨rfl, rfl⟩; exact absurd rfl (h [] [] rfl)

theorem inTurn_nil {α β : Type} {w : α → Option (List β)} {xs : List α} : inTurn w xs = some [] ↔ ∀ x ∈ xs, w x = some [] := by
  induction xs with
  | nil => simp [inTurn]
  | cons x t ih => simp [inTurn, bothErrs_nil, ih]

theorem map_nil {α β : Type} {a : Option (List α)} {g : α → β} : a.map (·.map g) = some [] ↔ a = some [] := by
  cases a with
  | none => simp
  | some x => simp

theorem itemsInTurn_nil {w : PDoc → Option (List PvErr)} {xs : List PDoc} : ∀ i, itemsInTurn w i xs = some [] ↔ ∀ x ∈ xs, w x = some [] := by
  induction xs with
  | nil => intro i; simp [itemsInTurn]
  | cons x t ih => intro i; simp only [itemsInTurn, bothErrs_nil, ih, map_nil, List.forall_mem_cons]

theorem pvisit_kws (f : VFlags) (s : VSchema) (d : PDoc) : pvisit f s d = some [] ↔ ∀ kw ∈ s.kws, pvisitKw f (propNames s.kws) kw d = some [] := by
  cases s with
  | mk kws a b c e =>
    simp only [pvisit, VSchema.kws]
    generalize propNames kws = props
    induction kws with
    | nil => simp [pvisitKws]
    | cons kw t ih => simp [pvisitKws, bothErrs_nil, ih]

theorem pvisitOwn_nil (f : VFlags) (ps : List (Str × VSchema)) (d : PDoc) :
    pvisitOwn f ps d = some [] ↔ ∀ p ∈ ps, ∀ v, d.get (.name p.1) = some v → pvisit f p.2 v = some [] := by
  induction ps with
  | nil => simp [pvisitOwn]
  | cons p t ih =>
    obtain ⟨k, s⟩ := p
    simp only [pvisitOwn, bothErrs_nil, ih, List.forall_mem_cons]
    refine and_congr ?_ Iff.rfl
    cases h : d.get (.name k) with
    | none => simp
    | some v => simp [map_nil]

/-- What is under the name in a list of named things. -/
theorem named_filter {α : Type} {xs : List (Label × α)} {kvs : List (Str × α)} (h : ByNames xs kvs) (k : Str) :
    xs.filter (fun e => e.1 == .name k) = match dget kvs k with | none => [] | some v => [(.name k, v)] := by
  obtain ⟨rfl, hn⟩ := h
  induction kvs with
  | nil => simp [dget]
  | cons p t ih =>
    obtain ⟨a, v⟩ := p
    simp only [dkeys, List.map_cons, List.nodup_cons] at hn
    have ih := ih hn.2
    simp only [List.map_cons, List.filter_cons, dget]
    by_cases hk : a = k
    · subst hk
      have : dget t a = none := by
        cases hd : dget t a with
        | none => rfl
        | some w => exact absurd ((mem_dkeys_iff _ _).2 ⟨w, hd⟩) hn.1
      rw [this] at ih
      simp [ih]
    · have h1 : ((Label.name a == Label.name k) : Bool) = false := by simp [hk]
      simp [h1, ih, hk]

theorem named_pos {α : Type} {xs : List (Label × α)} {kvs : List (Str × α)} (h : ByNames xs kvs) (n : Nat) :
    xs.filter (fun e => e.1 == .pos n) = [] := by
  obtain ⟨rfl, -⟩ := h
  rw [List.filter_eq_nil_iff]
  intro e he
  obtain ⟨q, -, rfl⟩ := List.mem_map.1 he
  simp

/-- The document as an object, and what it stands for. -/
structure ObjView (f : VFlags) (s : VSchema) (d : PDoc) (kvs : List (Str × Doc)) : Prop where
  object : d.isObject = true
  keys : ∀ k, .name k ∈ d.keys ↔ (dget kvs k).isSome
  noPos : ∀ n, .pos n ∉ d.keys
  get : ∀ k, (d.get (.name k)).isSome = (dget kvs k).isSome
  under : ∀ t k x y, ForProperty s k t → d.get (.name k) = some x → dget kvs k = some y → Stands f t x y

theorem isSome_keys {α : Type} (kvs : List (Str × α)) (k : Str) : (dget kvs k).isSome ↔ k ∈ dkeys kvs := by
  rw [mem_dkeys_iff, Option.isSome_iff_exists]

theorem named_keys {α : Type} {xs : List (Label × α)} {kvs : List (Str × α)} (h : ByNames xs kvs) :
    (∀ k, .name k ∈ xs.map (·.1) ↔ (dget kvs k).isSome) ∧ ∀ n, .pos n ∉ xs.map (·.1) := by
  obtain ⟨rfl, -⟩ := h
  constructor
  · intro k
    rw [isSome_keys]
    simp [dkeys]
  · intro n hn; simp at hn

theorem objView {f : VFlags} {s : VSchema} {d : PDoc} {e : Doc} (h : Stands f s d e) :
    (∃ kvs, e = .dict kvs ∧ ObjView f s d kvs) ∨ ((∀ kvs, e ≠ .dict kvs) ∧ (d.isObject = false ∨ NothingOnObjects s)) := by
  cases h with
  | scalar s np x => right; exact ⟨by intro kvs; cases x <;> simp [Scal.doc], .inl rfl⟩
  | list s xs ys h1 h2 => right; exact ⟨by simp, .inl rfl⟩
  | dict s kvs kvs' h1 h2 =>
    left
    refine ⟨kvs', rfl, rfl, ?_, ?_, h1, h2⟩
    · intro k
      rw [← h1 k, isSome_keys]
      simp [PDoc.keys]
    · intro n; simp [PDoc.keys]
  | array s b xs h => right; exact ⟨by simp, .inl rfl⟩
  | seriesArray s b es h1 h2 => right; exact ⟨by simp, .inr h1⟩
  | seriesObject s b es kvs h1 h2 h3 =>
    left
    have hk := named_keys h3
    have hd : ∀ k, dget (kvs.map (fun e => (e.1, e.2.doc))) k = (dget kvs k).map Scal.doc := fun k => dget_map_val kvs (fun _ v => v.doc) k
    have hg : ∀ k, (PDoc.series b es).get (.name k) = (dget kvs k).map (.scal true) := by
      intro k
      simp only [PDoc.get, named_filter h3 k]
      cases dget kvs k <;> rfl
    refine ⟨_, rfl, rfl, ?_, hk.2, ?_, ?_⟩
    · intro k; rw [hd]; simpa [PDoc.keys] using hk.1 k
    · intro k; rw [hd, hg]; simp
    · intro t k x y _ hx hy
      rw [hg] at hx; rw [hd] at hy
      cases hv : dget kvs k with
      | none => rw [hv] at hx; simp at hx
      | some v =>
        rw [hv] at hx hy
        simp only [Option.map_some, Option.some.injEq] at hx hy
        subst hx; subst hy
        exact .scalar t true v
  | frame s index cols kvs kvs' h1 h2 h3 h4 =>
    left
    have hk := named_keys h2
    have hg : ∀ k, (PDoc.frame index cols).get (.name k) = (dget kvs k).map (fun c => .series c.1 (index.zip c.2)) := by
      intro k
      simp only [PDoc.get, named_filter h2 k]
      cases dget kvs k <;> rfl
    refine ⟨_, rfl, rfl, ?_, hk.2, ?_, ?_⟩
    · intro k; rw [← h3]; exact hk.1 k
    · intro k; rw [hg, ← h3]; simp
    · intro t k x y ht hx hy
      rw [hg] at hx
      cases hv : dget kvs k with
      | none => rw [hv] at hx; simp at hx
      | some v =>
        rw [hv] at hx
        simp only [Option.map_some, Option.some.injEq] at hx
        subst hx
        exact h4 t k v y ht hv hy

/-- The document as an array, and what it stands for. -/
structure ArrView (f : VFlags) (s : VSchema) (d : PDoc) (ys : List Doc) : Prop where
  array : d.isArray = true
  size : d.elems.length = ys.length
  at_ : ∀ t (i : Nat) x y, .items t ∈ s.kws → d.elems[i]? = some x → ys[i]? = some y → Stands f t x y

theorem arrView {f : VFlags} {s : VSchema} {d : PDoc} {e : Doc} (h : Stands f s d e) :
    (∃ ys, e = .list ys ∧ ArrView f s d ys) ∨ ((∀ ys, e ≠ .list ys) ∧ (d.isArray = false ∨ NothingOnArrays s)) := by
  cases h with
  | scalar s np x => right; exact ⟨by intro kvs; cases x <;> simp [Scal.doc], .inl rfl⟩
  | list s xs ys h1 h2 => left; exact ⟨ys, rfl, rfl, h1, h2⟩
  | dict s kvs kvs' h1 h2 => right; exact ⟨by simp, .inl rfl⟩
  | array s b xs h =>
    left
    refine ⟨_, rfl, rfl, by simp [PDoc.elems], ?_⟩
    intro t i x y _ hx hy
    simp only [PDoc.elems, List.getElem?_map] at hx hy
    cases hv : xs[i]? with
    | none => rw [hv] at hx; simp at hx
    | some v =>
      rw [hv] at hx hy
      simp only [Option.map_some, Option.some.injEq] at hx hy
      subst hx; subst hy
      exact .scalar t true v
  | seriesArray s b es h1 h2 =>
    left
    refine ⟨_, rfl, rfl, by simp [PDoc.elems], ?_⟩
    intro t i x y _ hx hy
    simp only [PDoc.elems, List.getElem?_map] at hx hy
    cases hv : es[i]? with
    | none => rw [hv] at hx; simp at hx
    | some v =>
      rw [hv] at hx hy
      simp only [Option.map_some, Option.some.injEq] at hx hy
      subst hx; subst hy
      exact .scalar t false v.2
  | seriesObject s b es kvs h1 h2 h3 => right; exact ⟨by simp, .inr h1⟩
  | frame s index cols kvs kvs' h1 h2 h3 h4 => right; exact ⟨by simp, .inl rfl⟩

theorem arr_not_null {f : VFlags} {b : Bool} {xs : List Scal} (h : ¬ LoneNaN f b xs) : (PDoc.arr b xs).isNull f.nan = false := by
  unfold PDoc.isNull
  split
  · simp_all
  · simp_all
  · next t e => cases e; exact Bool.eq_false_iff.2 (fun hn => h ⟨rfl, t, hn, rfl⟩)
  · simp_all
  · simp_all
  · rfl

theorem series_not_null {f : VFlags} {b : Bool} {es : List (Label × Scal)} (h : ¬ LoneNaN f b (es.map (·.2))) :
    (PDoc.series b es).isNull f.nan = false := by
  unfold PDoc.isNull
  split
  · simp_all
  · simp_all
  · simp_all
  · next t e => cases e; exact Bool.eq_false_iff.2 (fun hn => h ⟨rfl, t, hn, rfl⟩)
  · simp_all
  · rfl

theorem frame_not_null {f : VFlags} {index : List Label} {cols : List (Label × Bool × List Scal)}
    (h : ¬ ∃ l b xs, cols = [(l, b, xs)] ∧ LoneNaN f b xs) : (PDoc.frame index cols).isNull f.nan = false := by
  unfold PDoc.isNull
  split
  · simp_all
  · simp_all
  · simp_all
  · simp_all
  · next t e => cases e; exact Bool.eq_false_iff.2 (fun hn => h ⟨_, _, _, rfl, rfl, t, hn, rfl⟩)
  · rfl

theorem type_same (f : VFlags) {s : VSchema} {d : PDoc} {e : Doc} (h : Stands f s d e) {ts : List JType} (hts : .type ts ∈ s.kws)
    {t : JType} (ht : t ∈ ts) : f.isPType t d = true ↔ HasType f t e := by
  rw [← isType_iff]
  have hnull : t = .null → NullAllowed s := by rintro rfl; exact ⟨ts, hts, ht⟩
  cases h with
  | scalar s np x => cases t <;> cases x <;> simp [VFlags.isPType, VFlags.isType, Scal.doc, PDoc.isObject, PDoc.isArray, PDoc.isNull, AutoFlags.isNull]
  | list s xs ys h1 h2 => cases t <;> simp [VFlags.isPType, VFlags.isType, PDoc.isObject, PDoc.isArray, PDoc.isNull, AutoFlags.isNull]
  | dict s kvs kvs' h1 h2 => cases t <;> simp [VFlags.isPType, VFlags.isType, PDoc.isObject, PDoc.isArray, PDoc.isNull, AutoFlags.isNull]
  | array s b xs h =>
    cases t with
    | null => simp [VFlags.isPType, VFlags.isType, AutoFlags.isNull, arr_not_null (fun hl => h ⟨hnull rfl, hl⟩)]
    | _ => simp [VFlags.isPType, VFlags.isType, PDoc.isObject, PDoc.isArray]
  | seriesArray s b es h1 h2 =>
    cases t with
    | null => simp [VFlags.isPType, VFlags.isType, AutoFlags.isNull, series_not_null (fun hl => h2 ⟨hnull rfl, hl⟩)]
    | object => exact absurd ht (h1.2.2.2.2.2 ts hts)
    | _ => simp [VFlags.isPType, VFlags.isType, PDoc.isObject, PDoc.isArray]
  | seriesObject s b es kvs h1 h2 h3 =>
    cases t with
    | null => simp [VFlags.isPType, VFlags.isType, AutoFlags.isNull, series_not_null (fun hl => h2 ⟨hnull rfl, hl⟩)]
    | array => exact absurd ht (h1.2 ts hts)
    | _ => simp [VFlags.isPType, VFlags.isType, PDoc.isObject, PDoc.isArray]
  | frame s index cols kvs kvs' h1 h2 h3 h4 =>
    cases t with
    | null => simp [VFlags.isPType, VFlags.isType, AutoFlags.isNull, frame_not_null (fun hl => h1 ⟨hnull rfl, hl⟩)]
    | _ => simp [VFlags.isPType, VFlags.isType, PDoc.isObject, PDoc.isArray]

theorem pyEq_listed {v : Doc} (hc : ClearValue v) (hb : ∀ b, v ≠ .bool b) (x : Scal) : pyEq x.doc v = true ↔ SameJson v x.doc := by
  cases hc with
  | null => cases x <;> simp [Scal.doc, pyEq] <;> first | exact SameJson.null | (intro h; cases h)
  | bool b => exact absurd rfl (hb b)
  | int i h0 h1 =>
    cases x with
    | int j =>
      simp only [Scal.doc, pyEq, beq_iff_eq]
      constructor
      · rintro rfl; exact .int _
      · intro h; cases h; rfl
    | bool b =>
      simp only [Scal.doc, pyEq, beq_iff_eq]
      constructor
      · intro h; cases b <;> simp at h <;> omega
      · intro h; cases h
    | _ =>
      simp only [Scal.doc, pyEq]
      constructor
      · intro h; cases h
      · intro h; cases h
  | atom t =>
    cases x with
    | atom u =>
      simp only [Scal.doc, pyEq, beq_iff_eq]
      constructor
      · rintro rfl; exact .atom _
      · intro h; cases h; rfl
    | _ =>
      simp only [Scal.doc, pyEq]
      constructor
      · intro h; cases h
      · intro h; cases h
  | str t =>
    cases x with
    | str u =>
      simp only [Scal.doc, pyEq, beq_iff_eq]
      constructor
      · rintro rfl; exact .str _
      · intro h; cases h; rfl
    | _ =>
      simp only [Scal.doc, pyEq]
      constructor
      · intro h; cases h
      · intro h; cases h

theorem enum_same {f : VFlags} {s : VSchema} {d : PDoc} {e : Doc} (h : Stands f s d e) {vs : List Doc} (hv : ∀ v ∈ vs, ClearValue v ∧ ∀ b, v ≠ .bool b) :
    d.ruleEnum vs = some true ↔ ∃ v ∈ vs, SameJson v e := by
  have hc : ∀ v ∈ vs, ClearValue v := fun v hm => (hv v hm).1
  have nodict : ∀ kvs, ¬ ∃ v ∈ vs, SameJson v (.dict kvs) := by
    rintro kvs ⟨v, hm, hs⟩
    have := hc v hm
    cases hs; cases this
  have nolist : ∀ xs, ¬ ∃ v ∈ vs, SameJson v (.list xs) := by
    rintro kvs ⟨v, hm, hs⟩
    have := hc v hm
    cases hs; cases this
  have hdictR : ∀ kvs, Model.ruleEnum vs (.dict kvs) = false := by
    intro kvs
    rw [Bool.eq_false_iff]
    exact fun h => nodict kvs ((clear_enum hc _).1 h)
  have hlistR : ∀ kvs, Model.ruleEnum vs (.list kvs) = false := by
    intro kvs
    rw [Bool.eq_false_iff]
    exact fun h => nolist kvs ((clear_enum hc _).1 h)
  cases h with
  | scalar s np x =>
    cases np with
    | false => simp only [PDoc.ruleEnum, PDoc.plain, Option.some.injEq]; exact clear_enum hc _
    | true =>
      simp only [PDoc.ruleEnum, Option.some.injEq, List.any_eq_true]
      constructor
      · rintro ⟨v, hm, h⟩; exact ⟨v, hm, (pyEq_listed (hv v hm).1 (hv v hm).2 x).1 h⟩
      · rintro ⟨v, hm, h⟩; exact ⟨v, hm, (pyEq_listed (hv v hm).1 (hv v hm).2 x).2 h⟩
  | list s xs ys h1 h2 =>
    simp only [nolist ys, iff_false]
    simp only [PDoc.ruleEnum, PDoc.plain]
    cases plainList xs with
    | none => by_cases hq : vs.isEmpty <;> simp [hq]
    | some zs => simp [hlistR]
  | dict s kvs kvs' h1 h2 =>
    simp only [nodict kvs', iff_false]
    simp only [PDoc.ruleEnum, PDoc.plain]
    cases plainItems kvs with
    | none => by_cases hq : vs.isEmpty <;> simp [hq]
    | some zs => simp [hdictR]
  | array s b xs h => simp only [nolist, iff_false, PDoc.ruleEnum, PDoc.plain]; by_cases hq : vs.isEmpty <;> simp [hq]
  | seriesArray s b es h1 h2 => simp only [nolist, iff_false, PDoc.ruleEnum, PDoc.plain]; by_cases hq : vs.isEmpty <;> simp [hq]
  | seriesObject s b es kvs h1 h2 h3 => simp only [nodict, iff_false, PDoc.ruleEnum, PDoc.plain]; by_cases hq : vs.isEmpty <;> simp [hq]
  | frame s index cols kvs kvs' h1 h2 h3 h4 => simp only [nodict, iff_false, PDoc.ruleEnum, PDoc.plain]; by_cases hq : vs.isEmpty <;> simp [hq]

end Lemmas
