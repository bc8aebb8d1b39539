import Verif.Spec.VisitPlain
import Verif.Lemmas.VisitPandas
import Verif.Props.PandelRules
/-
C148: documents without Series, DataFrames and arrays.
-/
namespace Props
open Py Model Spec Lemmas

private theorem list_map (xs : List Doc) : asGivenList xs = xs.map asGiven := by
  induction xs with
  | nil => rfl
  | cons x xs ih => simp [asGivenList, ih]

private theorem items_map (kvs : List (Str × Doc)) : asGivenItems kvs = kvs.map (fun e => (e.1, asGiven e.2)) := by
  induction kvs with
  | nil => rfl
  | cons x xs ih => obtain ⟨k, v⟩ := x; simp [asGivenItems, ih]

private theorem dget_given (kvs : List (Str × Doc)) (k : Str) : dget (asGivenItems kvs) k = (dget kvs k).map asGiven := by
  induction kvs with
  | nil => rfl
  | cons x xs ih =>
    obtain ⟨k', v⟩ := x
    simp only [asGivenItems, dget]
    split
    · rfl
    · exact ih

private theorem keys_given (kvs : List (Str × Doc)) : dkeys (asGivenItems kvs) = dkeys kvs := by
  rw [items_map]
  simp [dkeys, List.map_map, Function.comp_def]

mutual
private theorem plain_given : ∀ d, (asGiven d).plain = some d
  | .null => rfl
  | .bool _ => rfl
  | .int _ => rfl
  | .atom _ => rfl
  | .str _ => rfl
  | .list xs => by simp only [asGiven, PDoc.plain]; rw [plain_list xs]; rfl
  | .dict kvs => by simp only [asGiven, PDoc.plain]; rw [plain_items kvs]; rfl
private theorem plain_list : ∀ xs, plainList (asGivenList xs) = some xs
  | [] => rfl
  | x :: xs => by simp only [asGivenList, plainList]; rw [plain_given x, plain_list xs]
private theorem plain_items : ∀ kvs, plainItems (asGivenItems kvs) = some kvs
  | [] => rfl
  | (k, x) :: xs => by simp only [asGivenItems, plainItems]; rw [plain_given x, plain_items xs]
end

private theorem enum_given (vs : List Doc) (d : Doc) : (asGiven d).ruleEnum vs = some (Model.ruleEnum vs d) := by
  have h : ∀ p : PDoc, (∀ x, p ≠ .scal true x) → p.ruleEnum vs = match p.plain with
      | some e => some (Model.ruleEnum vs e)
      | none => if vs.isEmpty then some false else none := by
    intro p hp
    cases p with
    | scal np x =>
      cases np with
      | true => exact absurd rfl (hp x)
      | false => rfl
    | _ => rfl
  rw [h, plain_given]
  intro x
  cases d <;> simp [asGiven]

private theorem erase_names : ∀ (n : Nat) (ks : List Str), ks.length ≤ n → (ks.map Label.name).eraseDups = ks.eraseDups.map Label.name := by
  intro n
  induction n with
  | zero =>
    intro ks h
    cases ks with
    | nil => rfl
    | cons k ks => simp at h
  | succ n ih =>
    intro ks h
    cases ks with
    | nil => rfl
    | cons k ks =>
      simp only [List.map_cons, List.eraseDups_cons, List.filter_map]
      have he : ((fun b => !b == Label.name k) ∘ Label.name) = (fun b => !b == k) := by
        funext b
        simp only [Function.comp_apply]
        congr 1
        rw [Bool.eq_iff_iff, beq_iff_eq, beq_iff_eq]
        exact ⟨fun e => by cases e; rfl, fun e => by rw [e]⟩
      rw [he, ih]
      exact Nat.le_trans (List.length_filter_le _ _) (by simp at h; exact h)

private theorem extras_given (props : List Str) (kvs : List (Str × Doc)) :
    (asGiven (.dict kvs)).extras props = (extraKeys props kvs).map .name := by
  simp only [asGiven, PDoc.extras, PDoc.keys, extraKeys, keys_given]
  rw [← erase_names _ _ (Nat.le_refl _), List.filter_map]
  rfl

private theorem type_given (f : VFlags) (t : JType) (d : Doc) : f.isPType t (asGiven d) = f.isType t d := by
  cases t <;> cases d <;> rfl

private theorem both_map (a b : List VErr) : bothErrs (some (a.map toldAs)) (some (b.map toldAs)) = some ((a ++ b).map toldAs) := by
  simp [bothErrs]

/-- C148. A document without Series, DataFrames and arrays is validated as ever, whatever the schema and its enumerations: the validation does not
raise, and the errors are the same, in the same order; if no argument asks for defaults, when nothing is changed. -/
theorem C148_plain (f : VFlags) (hf : ¬ Asked f) (s : VSchema) (d : Doc) :
    pvisit f s (asGiven d) = some ((visit f s d).2.map toldAs) ∧ (visit f s d).1 = d := by
  have hfill : ∀ ps kvs, fillProps f ps kvs = kvs := by
    intro ps kvs
    unfold fillProps
    rw [if_neg]
    intro h
    apply hf
    simp only [Bool.or_eq_true] at h
    rcases h with (h | h) | h
    · left; cases hh : f.autoDefault with
      | none => rw [hh] at h; cases h
      | some b => rw [hh] at h; exact congrArg some h
    · right; left; cases hh : f.autoDefaultNulls with
      | none => rw [hh] at h; cases h
      | some b => rw [hh] at h; exact congrArg some h
    · right; right; cases hh : f.autoRemoveNulls with
      | none => rw [hh] at h; cases h
      | some b => rw [hh] at h; exact congrArg some h
  induction s using VSchema.ind generalizing d with
  | h s ih =>
  have hnoobj : ∀ d : Doc, (∀ kvs, d ≠ .dict kvs) → (asGiven d).isObject = false := by
    intro d hd
    cases d <;> first | rfl | exact absurd rfl (hd _)
  have hnoarr : ∀ d : Doc, (∀ xs, d ≠ .list xs) → (asGiven d).isArray = false := by
    intro d hd
    cases d <;> first | rfl | exact absurd rfl (hd _)
  have hobj : ∀ kvs, (asGiven (.dict kvs)).isObject = true := fun _ => rfl
  have harr : ∀ xs, (asGiven (.list xs)).isArray = true := fun _ => rfl
  have hget : ∀ kvs k, (asGiven (.dict kvs)).get (.name k) = (dget kvs k).map asGiven := fun kvs k => dget_given kvs k
  have key : ∀ kw ∈ s.kws, pvisitKw f (propNames s.kws) kw (asGiven d) = some ((visitKw f (propNames s.kws) kw d).2.map toldAs) ∧
      (visitKw f (propNames s.kws) kw d).1 = d := by
    intro kw hkw
    cases kw with
    | type ts =>
      simp only [pvisitKw, visitKw, type_given]
      refine ⟨?_, trivial⟩
      by_cases h : (ts.any fun t => f.isType t d) = true
      · rw [if_pos h, if_pos h]; rfl
      · rw [if_neg h, if_neg h]; rfl
    | enum vs =>
      simp only [pvisitKw, visitKw, enum_given, Option.map_some]
      refine ⟨?_, trivial⟩
      cases Model.ruleEnum vs d <;> rfl
    | items t =>
      by_cases hd : ∃ xs, d = .list xs
      · obtain ⟨xs, rfl⟩ := hd
        have hloop : ∀ (xs : List Doc) (i : Nat), itemsInTurn (fun v => pvisit f t v) i (asGivenList xs) =
            some ((visitItems (fun v => visit f t v) i xs).2.map toldAs) ∧ (visitItems (fun v => visit f t v) i xs).1 = xs := by
          intro xs
          induction xs with
          | nil => exact fun _ => ⟨rfl, rfl⟩
          | cons x xs ihx =>
            intro i
            obtain ⟨a, b⟩ := ih t (.items s t hkw) x
            obtain ⟨a', b'⟩ := ihx (i + 1)
            simp only [asGivenList, itemsInTurn, visitItems]
            rw [a, a', b, b']
            refine ⟨?_, rfl⟩
            rw [← both_map]
            simp [List.map_map, Function.comp_def, toldAs]
        obtain ⟨a, b⟩ := hloop xs 0
        simp only [pvisitKw, visitKw]
        rw [b]
        refine ⟨?_, rfl⟩
        rw [if_pos (harr _)]
        exact a
      · have hd' : ∀ xs, d ≠ .list xs := fun xs e => hd ⟨xs, e⟩
        simp only [pvisitKw, hnoarr d hd', Bool.false_eq_true, if_false]
        cases d <;> first | exact absurd rfl (hd' _) | exact ⟨rfl, rfl⟩
    | properties ps =>
      by_cases hd : ∃ kvs, d = .dict kvs
      · obtain ⟨kvs, rfl⟩ := hd
        have hloop : ∀ (qs : List (Str × VSchema)), (∀ q ∈ qs, q ∈ ps) → pvisitOwn f qs (asGiven (.dict kvs)) =
            some ((visitOwn f qs kvs).2.map toldAs) ∧ (visitOwn f qs kvs).1 = kvs := by
          intro qs
          induction qs with
          | nil => exact fun _ => ⟨by simp [pvisitOwn, visitOwn], by simp [visitOwn]⟩
          | cons q qs ihq =>
            intro hq
            obtain ⟨k, t⟩ := q
            obtain ⟨a', b'⟩ := ihq (fun q h => hq q (List.mem_cons_of_mem _ h))
            rw [pvisitOwn, visitOwn, hget]
            cases hk : dget kvs k with
            | none =>
              refine ⟨?_, b'⟩
              rw [a']
              simp [bothErrs]
            | some v =>
              obtain ⟨a, b⟩ := ih t (.property s ps k t hkw (hq _ (by simp))) v
              dsimp only [Option.map_some]
              rw [a, b, dset_same hk, a', b']
              refine ⟨?_, rfl⟩
              rw [← both_map]
              simp [List.map_map, Function.comp_def, toldAs]
        obtain ⟨a, b⟩ := hloop ps (fun _ h => h)
        rw [pvisitKw, visitKw, hfill]
        dsimp only
        rw [b, if_pos (hobj _)]
        exact ⟨a, rfl⟩
      · have hd' : ∀ xs, d ≠ .dict xs := fun xs e => hd ⟨xs, e⟩
        rw [pvisitKw, hnoobj d hd']
        cases d <;> first | exact absurd rfl (hd' _) | exact ⟨by simp [visitKw], by simp [visitKw]⟩
    | required ns =>
      by_cases hd : ∃ kvs, d = .dict kvs
      · obtain ⟨kvs, rfl⟩ := hd
        rw [pvisitKw, visitKw, if_pos (hobj _)]
        refine ⟨?_, rfl⟩
        simp only [hget, List.map_map]
        congr 1
        have he : (fun n => ((dget kvs n).map asGiven).isNone) = (fun n => !(dkeys kvs).contains n) := by
          funext n
          rw [Bool.eq_iff_iff]
          simp only [Option.isNone_map, Option.isNone_iff_eq_none, Bool.not_eq_true', List.contains_eq_mem, decide_eq_false_iff_not]
          exact dget_eq_none_iff _ _
        rw [he]
        rfl
      · have hd' : ∀ xs, d ≠ .dict xs := fun xs e => hd ⟨xs, e⟩
        rw [pvisitKw, hnoobj d hd']
        cases d <;> first | exact absurd rfl (hd' _) | exact ⟨by simp [visitKw], by simp [visitKw]⟩
    | additional b =>
      by_cases hd : ∃ kvs, d = .dict kvs
      · obtain ⟨kvs, rfl⟩ := hd
        rw [pvisitKw, visitKw, extras_given]
        refine ⟨?_, rfl⟩
        have ho : (asGiven (.dict kvs)).isObject = true := rfl
        rw [ho]
        cases b with
        | true => simp
        | false =>
          cases hx : extraKeys (propNames s.kws) kvs with
          | nil => simp
          | cons k ks => simp [toldAs]
      · have hd' : ∀ xs, d ≠ .dict xs := fun xs e => hd ⟨xs, e⟩
        rw [pvisitKw, hnoobj d hd']
        cases d <;> first | exact absurd rfl (hd' _) | exact ⟨by simp [visitKw], by simp [visitKw]⟩
    | additionalS t =>
      by_cases hd : ∃ kvs, d = .dict kvs
      · obtain ⟨kvs, rfl⟩ := hd
        have hloop : ∀ ks : List Str, inTurn (fun k => match (asGiven (.dict kvs)).get k with
              | none => some []
              | some v => (pvisit f t v).map (·.map (.inside k))) (ks.map .name) =
            some ((visitKeys (fun v => visit f t v) ks kvs).2.map toldAs) ∧ (visitKeys (fun v => visit f t v) ks kvs).1 = kvs := by
          intro ks
          induction ks with
          | nil => exact ⟨rfl, rfl⟩
          | cons k ks ihk =>
            obtain ⟨a', b'⟩ := ihk
            simp only [List.map_cons, inTurn, visitKeys, hget]
            cases hk : dget kvs k with
            | none =>
              refine ⟨?_, b'⟩
              rw [a']
              simp [bothErrs]
            | some v =>
              obtain ⟨a, b⟩ := ih t (.additional s t hkw) v
              dsimp only [Option.map_some]
              rw [a, b, dset_same hk, a', b']
              refine ⟨?_, rfl⟩
              rw [← both_map]
              simp [List.map_map, Function.comp_def, toldAs]
        obtain ⟨a, b⟩ := hloop (extraKeys (propNames s.kws) kvs)
        rw [pvisitKw, visitKw, extras_given, if_pos (hobj _)]
        dsimp only
        rw [b]
        exact ⟨a, rfl⟩
      · have hd' : ∀ xs, d ≠ .dict xs := fun xs e => hd ⟨xs, e⟩
        rw [pvisitKw, hnoobj d hd']
        cases d <;> first | exact absurd rfl (hd' _) | exact ⟨by simp [visitKw], by simp [visitKw]⟩
    | propertyNames t =>
      by_cases hd : ∃ kvs, d = .dict kvs
      · obtain ⟨kvs, rfl⟩ := hd
        have hloop : ∀ ks : List Str, inTurn (fun k => (pvisit f t k.asDoc).map (·.map (.name k))) (ks.map .name) =
            some ((ks.flatMap (fun k => (visit f t (.str k)).2.map (.name k))).map toldAs) := by
          intro ks
          induction ks with
          | nil => rfl
          | cons k ks ihk =>
            have a := (ih t (.names s t hkw) (.str k)).1
            have a2 : pvisit f t (Label.name k).asDoc = some ((visit f t (.str k)).2.map toldAs) := a
            simp only [List.map_cons, inTurn, List.flatMap_cons]
            rw [ihk, a2, ← both_map]
            simp [List.map_map, Function.comp_def, toldAs]
        rw [pvisitKw, visitKw, if_pos (hobj _)]
        refine ⟨?_, rfl⟩
        have hk : (asGiven (.dict kvs)).keys = (dkeys kvs).map .name := by simp [asGiven, PDoc.keys, keys_given]
        rw [hk]
        exact hloop _
      · have hd' : ∀ xs, d ≠ .dict xs := fun xs e => hd ⟨xs, e⟩
        rw [pvisitKw, hnoobj d hd']
        cases d <;> first | exact absurd rfl (hd' _) | exact ⟨by simp [visitKw], by simp [visitKw]⟩
  have hkws : ∀ kws : List VKw, (∀ kw ∈ kws, kw ∈ s.kws) → pvisitKws f (propNames s.kws) kws (asGiven d) =
      some ((visitKws f (propNames s.kws) kws d).2.map toldAs) ∧ (visitKws f (propNames s.kws) kws d).1 = d := by
    intro kws
    induction kws with
    | nil => exact fun _ => ⟨by simp [pvisitKws, visitKws], by simp [visitKws]⟩
    | cons kw kws ihk =>
      intro h
      obtain ⟨a, b⟩ := key kw (h kw (by simp))
      obtain ⟨a', b'⟩ := ihk (fun kw hk => h kw (List.mem_cons_of_mem _ hk))
      rw [pvisitKws, visitKws]
      dsimp only
      rw [a, b, a', b', both_map]
      exact ⟨rfl, rfl⟩
  cases s with
  | mk kws a b c e =>
    rw [pvisit, visit]
    exact hkws kws (fun _ h => h)

private def noFlags : VFlags := ⟨⟨some false, none, none, fun t => t == 0⟩, fun _ => true⟩

private def bare (kws : List VKw) : VSchema := .mk kws none none none none

/-- `{"properties": {"axes": {"enum": [["x", "y"], {"only": "z"}]}}, "additionalProperties": false}` -/
private def axes : VSchema := bare [.properties [("axes".toList, bare [.enum [.list [.str "x".toList, .str "y".toList],
  .dict [("only".toList, .str "z".toList)]]])], .additional false]

/-- Lists and dictionaries that are listed, or not, in a document that might have held a Series. -/
example : ¬ Asked noFlags ∧
    pvisit noFlags axes (asGiven (.dict [("axes".toList, .list [.str "x".toList, .str "y".toList])])) = some [] ∧
    pvisit noFlags axes (asGiven (.dict [("axes".toList, .dict [("only".toList, .str "z".toList)])])) = some [] ∧
    pvisit noFlags axes (asGiven (.dict [("axes".toList, .dict [("only".toList, .str "w".toList)]), ("b".toList, .null)])) =
      some [.inside (.name "axes".toList) .notListed, .unexpected [.name "b".toList]] :=
  ⟨by simp [Asked, noFlags], rfl, rfl, rfl⟩

end Props
