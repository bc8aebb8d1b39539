import Verif.Lemmas.DiveLax
import Verif.Lemmas.Truth
set_option linter.unusedSimpArgs false
/-
Lemmas about element-wise filters: their sub-filters and what an element is replaced with.
-/
namespace Lemmas
open Py Model Spec

private theorem ddel_absent (kvs : List (Str × Doc)) (k : Str) (h : dget kvs k = none) : ddel kvs k = kvs := by
  have := (dget_eq_none_iff kvs k).1 h
  unfold ddel
  rw [List.filter_eq_self]
  intro p hp
  simp
  rintro rfl
  exact this (List.mem_map.2 ⟨p, hp, rfl⟩)

theorem subs_pipe {S : Type} (R : Ranger S) (fs : List Doc) (subs : List CallSpec) (hs : parseSubs fs = .ok subs)
    (l : FRes S) :
    (∀ r subs', R.runSubs subs l = .ok (r, subs') → R.pipe fs l = .ok r ∧ subs' = subs.map CallSpec.popLax) ∧
    (∀ e, R.runSubs subs l = .error e → R.pipe fs l = .error e) := by
  induction fs generalizing subs l with
  | nil => simp [parseSubs] at hs; subst hs; simp [Ranger.runSubs, Ranger.pipe]
  | cons f fs ih =>
    unfold parseSubs at hs
    cases hp : parseCallSpec f with
    | error e => rw [hp] at hs; simp at hs
    | ok c =>
      rw [hp] at hs; simp only at hs
      cases hq : parseSubs fs with
      | error e => rw [hq] at hs; simp at hs
      | ok cs =>
        rw [hq] at hs; simp at hs; subst hs
        unfold Ranger.runSubs
        constructor
        · intro r subs' h
          cases hm : R.makeCall l c.func c.args c.kwds with
          | error e => rw [hm] at h; simp at h
          | ok l' =>
            rw [hm] at h; simp only at h
            cases hr : R.runSubs cs l' with
            | error e => rw [hr] at h; simp at h
            | ok q =>
              obtain ⟨l'', cs'⟩ := q
              rw [hr] at h; simp at h
              obtain ⟨rfl, rfl⟩ := h
              obtain ⟨h1, h2⟩ := (ih cs hq l').1 _ _ hr
              exact ⟨by simp [Ranger.pipe, hp, hm, h1], by simp [h2]⟩
        · intro e h
          cases hm : R.makeCall l c.func c.args c.kwds with
          | error e' => rw [hm] at h; simp at h; subst h; simp [Ranger.pipe, hp, hm]
          | ok l' =>
            rw [hm] at h; simp only at h
            cases hr : R.runSubs cs l' with
            | error e' => rw [hr] at h; simp at h; subst h; simp [Ranger.pipe, hp, hm, (ih cs hq l').2 _ hr]
            | ok q => rw [hr] at h; simp at h

theorem popLax_idem (c : CallSpec) : c.popLax.popLax = c.popLax := by
  simp [CallSpec.popLax, ddel, List.filter_filter]

theorem strict_parse {filters strict : List Doc} (h : SameButLax filters strict) :
    ∃ subs, parseSubs filters = .ok subs ∧ parseSubs strict = .ok (subs.map CallSpec.popLax) := by
  induction h with
  | nil => exact ⟨[], rfl, rfl⟩
  | cons f g c fs gs h1 h2 _ ih =>
    obtain ⟨subs, h3, h4⟩ := ih
    have h2' : parseCallSpec g = .ok c.popLax := h2
    exact ⟨c :: subs, by simp [parseSubs, h1, h3], by simp [parseSubs, h2', h4]⟩

theorem same_of_noLax {filters : List Doc} {subs : List CallSpec} (h : parseSubs filters = .ok subs) (hn : NoLax filters) :
    SameButLax filters filters := by
  induction filters generalizing subs with
  | nil => exact .nil
  | cons f fs ih =>
    unfold parseSubs at h
    cases hp : parseCallSpec f with
    | error e => rw [hp] at h; simp at h
    | ok c =>
      rw [hp] at h; simp only at h
      cases hq : parseSubs fs with
      | error e => rw [hq] at h; simp at h
      | ok cs =>
        refine .cons f f c fs fs hp ?_ (ih hq (fun g hg => hn g (by simp [hg])))
        rw [hp]
        have : withoutLax c.kwds = c.kwds := ddel_absent c.kwds "lax".toList (hn f (by simp) c hp)
        rw [this]

theorem call_step {S : Type} (R : Ranger S) (ef : EFun S) (l : Lasso S) (fs : List Doc) (subs : List CallSpec)
    (hs : parseSubs fs = .ok subs) (bc : Option Coords) (d : Doc) (o : Option Doc) (subs' : List CallSpec)
    (h : R.callElement ef l subs bc d = .ok (o, subs')) :
    ((took ef l bc d).isSome = false ∧ o = none ∧ subs' = subs) ∨
    ((took ef l bc d).isSome = true ∧ o = askOf ef (valuesAfter R fs) l bc d ∧ o ≠ none ∧ subs' = subs.map CallSpec.popLax) := by
  unfold Ranger.callElement at h
  unfold askOf took
  cases he : ef l bc d with
  | error e => rw [he] at h; simp at h
  | ok p =>
    obtain ⟨b, res⟩ := p
    rw [he] at h
    cases b with
    | false => simp at h; left; simp [← h.1, ← h.2]
    | true =>
      right
      have key : ∀ l1 : Lasso S, (match R.runSubs subs (.lasso l1) with
          | .error e => .error e
          | .ok (.lasso l', subs') => .ok (some l'.values, subs')
          | .ok (.other d, subs') => if d.truthy then .error .attributeError else .ok (some d, subs')) =
            Except.ok (o, subs') → o = valuesAfter R fs l1 ∧ o ≠ none ∧ subs' = subs.map CallSpec.popLax := by
        intro l1 h
        cases hr : R.runSubs subs (.lasso l1) with
        | error e => rw [hr] at h; simp at h
        | ok q =>
          obtain ⟨r, cs⟩ := q
          rw [hr] at h
          obtain ⟨h1, h2⟩ := (subs_pipe R fs subs hs _).1 _ _ hr
          subst h2
          unfold valuesAfter
          rw [h1]
          cases r with
          | lasso l' => simp at h; simp [← h.1, h.2]
          | other d =>
            simp only at h
            split at h
            · simp at h
            · simp at h; simp [← h.1, h.2]
      cases res with
      | lasso l' => exact ⟨rfl, key l' h⟩
      | other d' => exact ⟨rfl, key _ h⟩

theorem incl_iff {α : Type} [BEq α] [LawfulBEq α] (incl excl : Option (List α)) (k : α) :
    included incl excl k = true ↔ Selected incl excl k := by
  unfold included Selected
  cases incl <;> cases excl <;> simp
  · rename_i l; cases l <;> simp
  · rename_i l; cases l <;> simp
  · rename_i l m; cases l <;> cases m <;> simp

section
variable {S : Type} (R : Ranger S) (pandas : Bool) (ef : EFun S) (filters : List Doc)
  (depth : Option Int) (l : Lasso S)

theorem does (subs : List CallSpec) (fs : List Doc) (hs : parseSubs fs = .ok subs) :
    Does (R.callElement ef l) (fun bc x => (took ef l bc x).isSome) (· = subs) (· = subs.map CallSpec.popLax)
      (askOf ef (valuesAfter R fs) l) := by
  intro s bc d o s' he hc
  subst he
  rcases call_step R ef l fs s hs bc d o s' hc with h | h
  · exact .inl h
  · exact .inr h

theorem popped (subs : List CallSpec) : (subs.map CallSpec.popLax).map CallSpec.popLax = subs.map CallSpec.popLax := by
  simp [popLax_idem]

theorem hands_ask {bc : Option Coords} {x : Doc} {m : Lasso S} (h : Hands ef l bc x m) (after : Lasso S → Option Doc) :
    askOf ef after l bc x = after m := by
  cases h with
  | lasso _ h => simp only [askOf, h]
  | value d h => simp only [askOf, h]

theorem hands_took {bc : Option Coords} {x : Doc} {m : Lasso S} (h : Hands ef l bc x m) : (took ef l bc x).isSome = true := by
  cases h with
  | lasso _ h => simp [took, h]
  | value d h => simp [took, h]

theorem reached_congr {sel : Str → Prop} {ask ask' : Option Coords → Doc → Option Doc}
    (ha : ∀ bc x, ask bc x = none → ask' bc x = none) {v : Doc} {st : Option Coords}
    {p : List VStep} {x : Doc} {bc : Option Coords} (h : Reached sel depth pandas ask v st p x bc) :
    Reached sel depth pandas ask' v st p x bc := by
  induction h with
  | root h => exact .root h
  | key p kvs bc k x _ h1 h2 h3 ih => exact .key p kvs bc k x ih h1 h2 h3
  | idx p xs bc i x _ h1 h2 h3 ih => exact .idx p xs bc i x ih (ha _ _ h1) h2 h3

theorem answers_if : AnswersIf (R.callElement ef l) (fun _ => True) (took ef l) := by
  intro s bc d o s' _ h
  unfold Ranger.callElement at h
  unfold took
  cases he : ef l bc d with
  | error e => rw [he] at h; simp at h
  | ok p =>
    obtain ⟨b, res⟩ := p
    rw [he] at h
    cases b with
    | false => simp at h; simp [← h.1]
    | true =>
      simp only at h
      split at h
      · simp at h
      · simp at h; simp [← h.1]
      · split at h
        · simp at h
        · simp at h; simp [← h.1]

theorem keeps_true : Keeps (R.callElement ef l) (fun _ => True) := fun _ _ _ _ _ _ _ => trivial

theorem parse_fails (e : PyErr) (hp : parseSubs filters = .error e) : ∃ f ∈ filters, parseCallSpec f = .error e := by
  induction filters with
  | nil => simp [parseSubs] at hp
  | cons f fs ih =>
    unfold parseSubs at hp
    cases hf : parseCallSpec f with
    | error e => rw [hf] at hp; simp at hp; subst hp; exact ⟨f, by simp, hf⟩
    | ok c =>
      rw [hf] at hp; simp only at hp
      cases hq : parseSubs fs with
      | error e => rw [hq] at hp; simp at hp; subst hp; obtain ⟨g, hg, hh⟩ := ih hq; exact ⟨g, by simp [hg], hh⟩
      | ok cs => rw [hq] at hp; simp at hp

theorem keeps_either {filters strict : List Doc} {subs : List CallSpec} (hp : parseSubs filters = .ok subs)
    (hq : parseSubs strict = .ok (subs.map CallSpec.popLax)) :
    Keeps (R.callElement ef l) (fun s => s = subs ∨ s = subs.map CallSpec.popLax) := by
  rintro s bc d o s' (he | he) hc
  · rcases does R ef l subs filters hp s bc d o s' he hc with h | h
    · exact .inl h.2.2
    · exact .inr h.2.2.2
  · have hS := does R ef l _ strict hq
    rw [popped] at hS
    rcases hS s bc d o s' he hc with h | h
    · exact .inr h.2.2
    · exact .inr h.2.2.2

/-- How calling the element function, and then the sub-filters, fails. -/
theorem call_fails {filters strict : List Doc} {subs : List CallSpec} (hp : parseSubs filters = .ok subs)
    (hq : parseSubs strict = .ok (subs.map CallSpec.popLax)) {s1 : List CallSpec} (hs1 : s1 = subs ∨ s1 = subs.map CallSpec.popLax)
    {b : Option Coords} {x : Doc} {e' : PyErr} (hc : R.callElement ef l s1 b x = .error e') :
    (e' = .valueError ∧ ∃ e, ef l b x = .error e) ∨
       ∃ m fs, Hands ef l b x m ∧ (fs = filters ∨ fs = strict) ∧
        (R.pipe fs (.lasso m) = .error e' ∨ e' = .attributeError ∧ ∃ d, Truth d ∧ R.pipe fs (.lasso m) = .ok (.other d)) := by
  have hfs : ∃ fs, (fs = filters ∨ fs = strict) ∧ parseSubs fs = .ok s1 := by
    rcases hs1 with rfl | rfl
    · exact ⟨filters, .inl rfl, hp⟩
    · exact ⟨strict, .inr rfl, hq⟩
  obtain ⟨fs, hfs, hps⟩ := hfs
  unfold Ranger.callElement at hc
  cases he : ef l b x with
  | error e => rw [he] at hc; simp at hc; left; exact ⟨hc.symm, e, rfl⟩
  | ok q =>
    obtain ⟨bb, res⟩ := q
    rw [he] at hc
    cases bb with
    | false => simp at hc
    | true =>
      right
      have key : ∀ m : Lasso S, (match R.runSubs s1 (.lasso m) with
          | .error e => .error e
          | .ok (.lasso l', subs') => .ok (some l'.values, subs')
          | .ok (.other d, subs') => if d.truthy then .error .attributeError else .ok (some d, subs')) =
            (Except.error e' : Except PyErr (Option Doc × List CallSpec)) →
          (R.pipe fs (.lasso m) = .error e' ∨ e' = .attributeError ∧ ∃ d, Truth d ∧ R.pipe fs (.lasso m) = .ok (.other d)) := by
        intro m hc
        cases hr : R.runSubs s1 (.lasso m) with
        | error e => rw [hr] at hc; simp at hc; subst hc; left; exact (subs_pipe R fs s1 hps _).2 _ hr
        | ok q =>
          obtain ⟨r, cs⟩ := q
          rw [hr] at hc
          cases r with
          | lasso l' => simp at hc
          | other d =>
            right
            simp only at hc
            split at hc
            · rename_i ht
              simp at hc
              exact ⟨hc.symm, d, (truthy_iff d).1 ht, ((subs_pipe R fs s1 hps _).1 _ _ hr).1⟩
            · simp at hc
      cases res with
      | lasso m => exact ⟨m, fs, .lasso m he, hfs, key m hc⟩
      | other d => exact ⟨_, fs, .value d he, hfs, key _ hc⟩

end

end Lemmas
