import Verif.Lemmas.JsonPointer
import Verif.Lemmas.Int
import Verif.Lemmas.Dict
set_option linter.unusedSimpArgs false
namespace Model
open Py Spec

theorem seqIndex_iff (len : Nat) (n : Int) (j : Nat) :
    seqIndex len n = some j ↔ j < len ∧ (n = j ∨ n = (j : Int) - len) := by
  unfold seqIndex
  split
  · split
    · simp only [Option.some.injEq]; omega
    · simp; omega
  · split
    · simp only [Option.some.injEq]; omega
    · simp; omega

theorem getItem_list (xs : List Doc) (n : Int) (d : Doc) :
    (Doc.list xs).getItem (.i n) = .ok d ↔ ∃ j, seqIndex xs.length n = some j ∧ xs[j]? = some d := by
  simp only [Doc.getItem]
  cases h : seqIndex xs.length n with
  | none => simp
  | some j =>
    simp only [Option.bind_some, Option.some.injEq, exists_eq_left']
    cases h2 : xs[j]? <;> simp

theorem getItem_str (cs : Str) (n : Int) (d : Doc) :
    (Doc.str cs).getItem (.i n) = .ok d ↔
      ∃ j c, seqIndex cs.length n = some j ∧ cs[j]? = some c ∧ d = .str [c] := by
  simp only [Doc.getItem]
  cases h : seqIndex cs.length n with
  | none => simp
  | some j =>
    simp only [Option.bind_some, Option.some.injEq]
    cases h2 : cs[j]? with
    | none =>
      constructor
      · intro h; cases h
      · rintro ⟨j', c', rfl, h3, _⟩; rw [h2] at h3; cases h3
    | some c =>
      simp only [Except.ok.injEq]
      constructor
      · intro h; exact ⟨j, c, rfl, h2, h.symm⟩
      · rintro ⟨j', c', rfl, h3, rfl⟩; rw [h2] at h3; simp_all

theorem getItem_dict (kvs : List (Str × Doc)) (k : Str) (d : Doc) :
    (Doc.dict kvs).getItem (.s k) = .ok d ↔ dget kvs k = some d := by
  simp only [Doc.getItem]
  cases h : dget kvs k <;> simp

theorem resolveParts_cons (doc : Doc) (p : Str) (ps : List Str) (v : Doc) :
    resolveParts doc (p :: ps) = some v ↔
      ∃ d, doc.getItem (partIdx doc p) = .ok d ∧ resolveParts d ps = some v := by
  simp only [resolveParts]
  cases h : doc.getItem (partIdx doc p) <;> simp

theorem reach_iff (parts : List Str) : ∀ (doc v : Doc),
    resolveParts doc parts = some v ↔ Reach doc parts v := by
  induction parts with
  | nil =>
    intro doc v
    simp only [resolveParts, Option.some.injEq]
    constructor
    · intro h; subst h; exact .nil _
    · intro h; cases h; rfl
  | cons p ps ih =>
    intro doc v
    rw [resolveParts_cons]
    simp only [ih]
    constructor
    · rintro ⟨d, h1, h2⟩
      cases doc with
      | dict kvs =>
        simp only [partIdx, Doc.isSeq, Bool.false_eq_true, if_false] at h1
        rw [getItem_dict] at h1
        obtain ⟨b, a, rfl, hn⟩ := (dget_eq_some_iff _ _ _).1 h1
        exact .key b a p d ps v hn h2
      | list xs =>
        simp only [partIdx, Doc.isSeq, if_true] at h1
        cases hp : pyInt p with
        | none => simp [hp, Doc.getItem] at h1
        | some n =>
          simp only [hp] at h1
          obtain ⟨j, hj, hx⟩ := (getItem_list _ _ _).1 h1
          exact .idx xs p n j d ps v hp ((seqIndex_iff _ _ _).1 hj).2 hx h2
      | str cs =>
        simp only [partIdx, Doc.isSeq, if_true] at h1
        cases hp : pyInt p with
        | none => simp [hp, Doc.getItem] at h1
        | some n =>
          simp only [hp] at h1
          obtain ⟨j, c, hj, hx, rfl⟩ := (getItem_str _ _ _).1 h1
          exact .chr cs p n j c ps v hp ((seqIndex_iff _ _ _).1 hj).2 hx h2
      | null => simp [partIdx, Doc.isSeq, Doc.getItem] at h1
      | bool b => simp [partIdx, Doc.isSeq, Doc.getItem] at h1
      | int b => simp [partIdx, Doc.isSeq, Doc.getItem] at h1
      | atom b => simp [partIdx, Doc.isSeq, Doc.getItem] at h1
    · intro h
      cases h with
      | key b a k d ps v hn h2 =>
        refine ⟨d, ?_, h2⟩
        simp only [partIdx, Doc.isSeq, Bool.false_eq_true, if_false]
        rw [getItem_dict]; exact dget_append_mid hn
      | idx xs p n j d ps v hp hj hx h2 =>
        refine ⟨d, ?_, h2⟩
        simp only [partIdx, Doc.isSeq, if_true, hp]
        exact (getItem_list _ _ _).2 ⟨j, (seqIndex_iff _ _ _).2
          ⟨(List.getElem?_eq_some_iff.1 hx).1, hj⟩, hx⟩
      | chr cs p n j c ps v hp hj hx h2 =>
        refine ⟨.str [c], ?_, h2⟩
        simp only [partIdx, Doc.isSeq, if_true, hp]
        exact (getItem_str _ _ _).2 ⟨j, c, (seqIndex_iff _ _ _).2
          ⟨(List.getElem?_eq_some_iff.1 hx).1, hj⟩, hx, rfl⟩

theorem walk_reach {d : Doc} {steps : List Step} {v : Doc} (h : Walk d steps v) :
    Reach d (steps.map Step.text) v := by
  induction h with
  | nil d => exact .nil d
  | key b a k d steps v hn _ ih => exact .key b a k d _ v hn ih
  | idx xs n d steps v hx _ ih =>
    exact .idx xs _ n n d _ v (pyInt_natStr n) (Or.inl rfl) hx ih

theorem iterParts_pointerOf (parts : List Str) : iterParts (pointerOf parts) = .ok parts := by
  simp [iterParts, splitOn_pointerOf, Function.comp_def, unescape_esc]

theorem iterParts_error {ptr : Str} {e : PyErr} (h : iterParts ptr = .error e) :
    e = .refResolution := by
  unfold iterParts at h
  split at h <;> cases h
  rfl

/-! ### setting -/

theorem mkBranch_resolve (v : Doc) (ps : List Str) : resolveParts (mkBranch v ps) ps = some v := by
  induction ps with
  | nil => rfl
  | cons p ps ih =>
    rw [resolveParts_cons]
    refine ⟨mkBranch v ps, ?_, ih⟩
    simp [mkBranch, partIdx, Doc.isSeq, Doc.getItem, dget]

theorem natIndexed_tail {d d' : Doc} {p : Str} {ps : List Str} (h : NatIndexed d (p :: ps))
    (h1 : d.getItem (partIdx d p) = .ok d') : NatIndexed d' ps := by
  intro pre q post xs he hr
  refine h (p :: pre) q post xs (by simp [he]) ?_
  rw [← reach_iff] at hr ⊢
  rw [resolveParts_cons]
  exact ⟨d', h1, hr⟩

theorem setParts_get (parts : List Str) : ∀ (isRoot : Bool) (doc value doc' : Doc),
    NatIndexed doc parts → setParts isRoot value doc parts = .ok doc' →
    resolveParts doc' parts = some value := by
  induction parts with
  | nil => intro r doc value doc' _ h; simp [setParts] at h; subst h; rfl
  | cons p ps ih =>
    intro r doc value doc' hn h
    simp only [setParts] at h
    cases doc with
    | dict kvs =>
      simp only [setIdx] at h
      cases hg : (Doc.dict kvs).getItem (.s p) with
      | ok nd =>
        simp only [hg] at h
        cases hs : setParts false value nd ps with
        | error e => simp [hs] at h
        | ok nd' =>
          simp only [hs, Except.ok.injEq] at h
          subst h
          have := ih false nd value nd' (natIndexed_tail hn (by simpa [partIdx, Doc.isSeq] using hg)) hs
          rw [resolveParts_cons]
          exact ⟨nd', by simp [attach, partIdx, Doc.isSeq, Doc.getItem], this⟩
      | error e =>
        cases e with
        | type =>
          simp [Doc.getItem] at hg
          split at hg <;> cases hg
        | lookup =>
          simp only [hg, Except.ok.injEq] at h
          subst h
          rw [resolveParts_cons]
          exact ⟨mkBranch value ps, by simp [attach, partIdx, Doc.isSeq, Doc.getItem], mkBranch_resolve _ _⟩
    | list xs =>
      obtain ⟨n, hp⟩ := hn [] p ps xs rfl (.nil _)
      have hd : p ≠ ['-'] := by
        intro e; subst e; simp [show pyInt ['-'] = none by rfl] at hp
      simp only [setIdx, hd, if_false, hp] at h
      by_cases hgt : (n : Int) > xs.length
      · simp [hgt] at h
      · simp only [hgt, if_false] at h
        have hle : n ≤ xs.length := by omega
        cases hg : (Doc.list xs).getItem (.i n) with
        | ok nd =>
          simp only [hg] at h
          cases hs : setParts false value nd ps with
          | error e => simp [hs] at h
          | ok nd' =>
            simp only [hs, Except.ok.injEq] at h
            subst h
            have hlt : n < xs.length := by
              obtain ⟨j, hj, _⟩ := (getItem_list _ _ _).1 hg
              rw [seqIndex_nat] at hj
              split at hj
              · assumption
              · cases hj
            have := ih false nd value nd'
              (natIndexed_tail hn (by simpa [partIdx, Doc.isSeq, hp] using hg)) hs
            rw [resolveParts_cons]
            refine ⟨nd', ?_, this⟩
            simp [attach, seqIndex_nat, hlt, partIdx, Doc.isSeq, hp, Doc.getItem]
        | error e =>
          have hge : ¬ n < xs.length := by
            intro hlt
            have := (getItem_list xs n xs[n]).2 ⟨n, by simp [seqIndex_nat, hlt], by simp [hlt]⟩
            rw [hg] at this; cases this
          have hne : e = .lookup := by
            simp [Doc.getItem, seqIndex_nat, hge] at hg; exact hg.symm
          subst hne
          simp only [hg, Except.ok.injEq] at h
          subst h
          have hnl : n = xs.length := by omega
          rw [resolveParts_cons]
          refine ⟨mkBranch value ps, ?_, mkBranch_resolve _ _⟩
          simp [attach, seqIndex_nat, hge, partIdx, Doc.isSeq, hp, Doc.getItem, hnl]
    | str cs =>
      simp only [setIdx, Doc.getItem] at h
      split at h
      · cases h
      · simp only [Except.ok.injEq] at h; subst h; exact mkBranch_resolve value (p :: ps)
    | null =>
      simp only [setIdx, Doc.getItem] at h
      split at h
      · cases h
      · simp only [Except.ok.injEq] at h; subst h; exact mkBranch_resolve value (p :: ps)
    | bool b =>
      simp only [setIdx, Doc.getItem] at h
      split at h
      · cases h
      · simp only [Except.ok.injEq] at h; subst h; exact mkBranch_resolve value (p :: ps)
    | int b =>
      simp only [setIdx, Doc.getItem] at h
      split at h
      · cases h
      · simp only [Except.ok.injEq] at h; subst h; exact mkBranch_resolve value (p :: ps)
    | atom b =>
      simp only [setIdx, Doc.getItem] at h
      split at h
      · cases h
      · simp only [Except.ok.injEq] at h; subst h; exact mkBranch_resolve value (p :: ps)

theorem resolveParts_dict (kvs : List (Str × Doc)) (q : Str) (qs : List Str) :
    resolveParts (.dict kvs) (q :: qs) = (dget kvs q).bind (fun d => resolveParts d qs) := by
  simp only [resolveParts, partIdx, Doc.isSeq, Bool.false_eq_true, if_false, Doc.getItem]
  cases dget kvs q <;> rfl

theorem resolveParts_list_nat (xs : List Doc) (q : Str) (qs : List Str) (m : Nat)
    (hq : pyInt q = some (m : Int)) :
    resolveParts (.list xs) (q :: qs) = (xs[m]?).bind (fun d => resolveParts d qs) := by
  simp only [resolveParts, partIdx, Doc.isSeq, if_true, hq, Doc.getItem, seqIndex_nat]
  by_cases h : m < xs.length
  · simp [h]
  · simp [h]

theorem setParts_frame {doc : Doc} {ps qs : List Str} (hd : Diverge doc ps qs) :
    ∀ (isRoot : Bool) (value doc' : Doc), setParts isRoot value doc ps = .ok doc' →
      resolveParts doc' qs = resolveParts doc qs := by
  induction hd with
  | key kvs p q ps qs hne =>
    intro r value doc' h
    have key : ∀ b : Doc, resolveParts (attach (.dict kvs) (.s p) b) (q :: qs)
        = resolveParts (.dict kvs) (q :: qs) := by
      intro b; simp only [attach, resolveParts_dict, dget_dset_ne _ _ (Ne.symm hne)]
    simp only [setParts, setIdx] at h
    cases hg : (Doc.dict kvs).getItem (.s p) with
    | ok nd =>
      simp only [hg] at h
      cases hs : setParts false value nd ps with
      | error e => simp [hs] at h
      | ok nd' => simp only [hs, Except.ok.injEq] at h; subst h; exact key _
    | error e =>
      cases e with
      | type => simp [Doc.getItem] at hg; split at hg <;> cases hg
      | lookup => simp only [hg, Except.ok.injEq] at h; subst h; exact key _
  | idx xs p q ps qs n m hp hq hne =>
    intro r value doc' h
    have hidx : setIdx (.list xs) p = .ok (.i n) ∨ ∃ e, setIdx (.list xs) p = .error e := by
      simp only [setIdx]
      split
      · next e =>
        rcases hp with hp | ⟨_, hp⟩
        · subst e; simp [show pyInt ['-'] = none by rfl] at hp
        · left; simp [hp]
      · next e =>
        rcases hp with hp | ⟨hp, _⟩
        · simp only [hp]
          split
          · right; exact ⟨_, rfl⟩
          · left; rfl
        · exact absurd hp e
    simp only [setParts] at h
    rcases hidx with hidx | ⟨e, hidx⟩
    · simp only [hidx] at h
      have hle : n ≤ xs.length := by
        simp only [setIdx] at hidx
        split at hidx
        · injection hidx with h; injection h with h; omega
        · split at hidx
          · cases hidx
          · split at hidx
            · cases hidx
            · injection hidx with h; injection h with h; omega
      have key : ∀ b : Doc, resolveParts (attach (.list xs) (.i n) b) (q :: qs)
          = resolveParts (.list xs) (q :: qs) := by
        intro b
        simp only [attach, seqIndex_nat]
        by_cases hlt : n < xs.length
        · simp only [hlt, if_true]
          rw [resolveParts_list_nat _ _ _ _ hq, resolveParts_list_nat _ _ _ _ hq,
            List.getElem?_set_ne hne]
        · simp only [hlt, if_false]
          rw [resolveParts_list_nat _ _ _ _ hq, resolveParts_list_nat _ _ _ _ hq]
          congr 1
          by_cases hm : m < xs.length
          · rw [List.getElem?_append_left hm]
          · rw [List.getElem?_eq_none (by simp; omega), List.getElem?_eq_none (by omega)]
      cases hg : (Doc.list xs).getItem (.i n) with
      | ok nd =>
        simp only [hg] at h
        cases hs : setParts false value nd ps with
        | error e => simp [hs] at h
        | ok nd' => simp only [hs, Except.ok.injEq] at h; subst h; exact key _
      | error e =>
        cases e with
        | type => simp [Doc.getItem] at hg; split at hg <;> cases hg
        | lookup => simp only [hg, Except.ok.injEq] at h; subst h; exact key _
    · simp [hidx] at h
  | belowKey b a k d ps qs hn _ ih =>
    intro r value doc' h
    have hg : dget (b ++ (k, d) :: a) k = some d := dget_append_mid hn
    simp only [setParts, setIdx, (getItem_dict _ _ _).2 hg] at h
    cases hs : setParts false value d ps with
    | error e => simp [hs] at h
    | ok nd' =>
      simp only [hs, Except.ok.injEq] at h; subst h
      simp only [attach, resolveParts_dict, dget_dset_self, hg, Option.bind_some]
      exact ih false value nd' hs
  | belowIdx xs p q ps qs n d hp hq hx _ ih =>
    intro r value doc' h
    have hlt := (List.getElem?_eq_some_iff.1 hx).1
    have hd : p ≠ ['-'] := by
      intro e; subst e; simp [show pyInt ['-'] = none by rfl] at hp
    have hg : (Doc.list xs).getItem (.i n) = .ok d :=
      (getItem_list _ _ _).2 ⟨n, by simp [seqIndex_nat, hlt], hx⟩
    have hng : ¬ ((n : Int) > xs.length) := by omega
    simp only [setParts, setIdx, hd, if_false, hp, hng, hg] at h
    cases hs : setParts false value d ps with
    | error e => simp [hs] at h
    | ok nd' =>
      simp only [hs, Except.ok.injEq] at h; subst h
      simp only [attach, seqIndex_nat, hlt, if_true]
      rw [resolveParts_list_nat _ _ _ _ hq, resolveParts_list_nat _ _ _ _ hq,
        List.getElem?_set_self hlt, hx]
      exact ih false value nd' hs

end Model
