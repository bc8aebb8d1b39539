import Verif.Lemmas.JsonPointerResolve
/-
C03-C08, C66: resolving and setting by json-pointers and paths.
-/
set_option linter.unusedSimpArgs false
namespace Props
open Py Model Spec

/-- A document used to show that hypotheses are met: `{"a": {"b/c": [10, {"~": "xyz"}]}, "-": null}`. -/
def sampleDoc : Doc :=
  .dict [("a".toList, .dict [("b/c".toList, .list [.int 10, .dict [("~".toList, .str "xyz".toList)]])]),
         ("-".toList, .null)]

/-! ### C03 -/

/-- C03. Resolving the pointer written from keys and indexes gives the value they lead to. -/
theorem C03_resolve_walk (d : Doc) (steps : List Step) (v : Doc) (h : Walk d steps v) :
    resolveJsonPointer d (pointerOf (steps.map Step.text)) none = .ok v := by
  have := (reach_iff _ _ _).2 (walk_reach h)
  simp [resolveJsonPointer, iterParts_pointerOf, this]

example : ∃ v, Walk sampleDoc [.key "a".toList, .key "b/c".toList, .idx 1, .key "~".toList] v :=
  ⟨_, .key [] _ _ _ _ _ (by simp) <| .key [] [] _ _ _ _ (by simp) <| .idx _ _ _ _ _ rfl <|
    .key [] [] _ _ _ _ (by simp) <| .nil _⟩

/-- C03. Exactly: a pointer resolves to `v` if and only if walking its parts (Python indexing)
leads to `v`; otherwise `RefResolutionError` is raised. -/
theorem C03_resolve_exact (d : Doc) (parts : List Str) (v : Doc) :
    (resolveJsonPointer d (pointerOf parts) none = .ok v ↔ Reach d parts v) ∧
    ((¬ ∃ w, Reach d parts w) ↔ resolveJsonPointer d (pointerOf parts) none = .error .refResolution) := by
  simp only [← reach_iff, resolveJsonPointer, iterParts_pointerOf]
  cases resolveParts d parts <;> simp

example : resolveJsonPointer sampleDoc "/a/b~1c/1/~0/2".toList none = .ok (.str "z".toList) := by rfl
example : resolveJsonPointer sampleDoc "/a/b~1c/2".toList none = .error .refResolution := by rfl

/-- C03. The value reached is unique. -/
theorem C03_reach_functional (d : Doc) (parts : List Str) (v w : Doc) (h1 : Reach d parts v)
    (h2 : Reach d parts w) : v = w := by
  rw [← reach_iff] at h1 h2; rw [h1] at h2; injection h2

/-- C03. Soundness with respect to keys and indexes: if a pointer resolves, never passing through
a string, and the parts that are numbers are plain decimal numerals, then it was a walk. -/
theorem C03_resolve_is_walk (d : Doc) (parts : List Str) (v : Doc)
    (h : resolveJsonPointer d (pointerOf parts) none = .ok v)
    (hstr : ∀ pre post s, parts = pre ++ post → Reach d pre (.str s) → post = [])
    (hnum : ∀ p ∈ parts, ∀ n, pyInt p = some n → ∃ m : Nat, p = Nat.toDigits 10 m) :
    ∃ steps, steps.map Step.text = parts ∧ Walk d steps v := by
  have hr := (C03_resolve_exact d parts v).1.1 h
  clear h
  induction hr with
  | nil d => exact ⟨[], rfl, .nil d⟩
  | key b a k d ps v hn hr ih =>
    obtain ⟨steps, h1, h2⟩ := ih
      (fun pre post s he hs => hstr (k :: pre) post s (by simp [he]) (.key b a k d _ _ hn hs))
      (fun p hp => hnum p (by simp [hp]))
    exact ⟨.key k :: steps, by simp [h1, Step.text], .key b a k d steps v hn h2⟩
  | idx xs p n j d ps v hp hj hx hr ih =>
    obtain ⟨steps, h1, h2⟩ := ih
      (fun pre post s he hs => hstr (p :: pre) post s (by simp [he]) (.idx xs p n j d _ _ hp hj hx hs))
      (fun p hp => hnum p (by simp [hp]))
    obtain ⟨m, rfl⟩ := hnum p (by simp) n hp
    have hm : n = (m : Int) := by
      have := pyInt_natStr m; rw [natStr, hp] at this; injection this
    have hlt := (List.getElem?_eq_some_iff.1 hx).1
    have : j = m := by omega
    subst this
    exact ⟨.idx j :: steps, by simp [h1, Step.text], .idx xs j d steps v hx h2⟩
  | chr cs p n j c ps v hp hj hx hr ih =>
    exact absurd (hstr [] (p :: ps) cs rfl (.nil _)) (by simp)

/-! ### C04 -/

/-- C04. A default changes nothing for pointers that resolve, and replaces exactly the error of
well-formed pointers that do not. -/
theorem C04_default (d : Doc) (parts : List Str) (dflt : Doc) :
    (∀ v, Reach d parts v → resolveJsonPointer d (pointerOf parts) (some dflt) = .ok v) ∧
    ((¬ ∃ v, Reach d parts v) → resolveJsonPointer d (pointerOf parts) (some dflt) = .ok dflt) := by
  simp only [← reach_iff, resolveJsonPointer, iterParts_pointerOf]
  cases resolveParts d parts <;> simp

example : resolveJsonPointer sampleDoc "/a/x".toList (some (.int 7)) = .ok (.int 7) := by rfl

/-- C04. A malformed pointer is rejected even with a default. -/
theorem C04_malformed (d : Doc) (ptr : Str) (h1 : ptr ≠ []) (h2 : ptr.head? ≠ some '/')
    (dflt : Option Doc) : resolveJsonPointer d ptr dflt = .error .refResolution := by
  unfold resolveJsonPointer iterParts
  cases ptr with
  | nil => exact absurd rfl h1
  | cons c t =>
    have hc : c ≠ '/' := by simpa using h2
    simp only [splitOn, hc, if_false]
    cases hs : splitOn '/' t with
    | nil => exact absurd hs (splitOn_ne_nil _ _)
    | cons p ps => rfl

example : resolveJsonPointer sampleDoc "a".toList (some .null) = .error .refResolution := by rfl

/-- C04. No other exception escapes from resolving. -/
theorem C04_only_ref_error (d : Doc) (ptr : Str) (dflt : Option Doc) (e : PyErr)
    (h : resolveJsonPointer d ptr dflt = .error e) : e = .refResolution := by
  unfold resolveJsonPointer at h
  split at h
  · next e' he => cases h; exact iterParts_error he
  · split at h
    · cases h
    · cases dflt <;> cases h; rfl

/-! ### C05 -/

/-- C05. After a successful set, reading the same pointer gives the value that was set, whenever
the list positions on the path are written as non-negative numbers. -/
theorem C05_set_get (d d' v : Doc) (parts : List Str) (hn : NatIndexed d parts)
    (h : setJsonPointer d (pointerOf parts) v = .ok d') :
    resolveJsonPointer d' (pointerOf parts) none = .ok v := by
  unfold setJsonPointer at h
  rw [iterParts_pointerOf] at h
  cases parts with
  | nil => cases h
  | cons p ps =>
    simp only at h
    have := setParts_get (p :: ps) true d v d' hn h
    simp [resolveJsonPointer, iterParts_pointerOf, this]

/-- The hypotheses of `C05_set_get` are met by a set that extends a list and creates a branch. -/
example : NatIndexed sampleDoc ["a".toList, "b/c".toList, "2".toList, "new".toList, "leaf".toList] ∧
    ∃ d', setJsonPointer sampleDoc
      (pointerOf ["a".toList, "b/c".toList, "2".toList, "new".toList, "leaf".toList]) (.int 5) = .ok d' := by
  refine ⟨?_, ⟨_, rfl⟩⟩
  intro pre p post xs he hr
  have h := (reach_iff _ _ _).2 hr
  match pre, he, h with
  | [], he, h => simp [resolveParts, sampleDoc] at h
  | [a], he, h => simp at he; obtain ⟨rfl, rfl, _⟩ := he; cases h
  | [a, b], he, h => simp at he; obtain ⟨rfl, rfl, rfl, _⟩ := he; exact ⟨2, rfl⟩
  | [a, b, c], he, h => simp at he; obtain ⟨rfl, rfl, rfl, rfl, _⟩ := he; cases h
  | [a, b, c, e], he, h => simp at he; obtain ⟨rfl, rfl, rfl, rfl, rfl, _⟩ := he; cases h
  | a :: b :: c :: e :: f :: r, he, _ => simp at he

/-- C05. Setting succeeds on every object and every pointer that meets no list: nothing else is
needed (missing branches are created, scalars on the way are replaced). -/
theorem C05_set_total (kvs : List (Str × Doc)) (v : Doc) (parts : List Str) (hne : parts ≠ [])
    (hl : ∀ pre post xs, parts = pre ++ post → Reach (.dict kvs) pre (.list xs) → post = []) :
    ∃ d', setJsonPointer (.dict kvs) (pointerOf parts) v = .ok d' := by
  have key : ∀ (parts : List Str) (r : Bool) (d : Doc), (r = true → ∃ kvs, d = .dict kvs) →
      (∀ pre post xs, parts = pre ++ post → Reach d pre (.list xs) → post = []) →
      ∃ d', setParts r v d parts = .ok d' := by
    intro parts
    induction parts with
    | nil => intro r d _ _; exact ⟨v, rfl⟩
    | cons p ps ih =>
      intro r d hr hl
      simp only [setParts]
      cases d with
      | list xs => exact absurd (hl [] (p :: ps) xs rfl (.nil _)) (by simp)
      | dict kvs =>
        simp only [setIdx]
        cases hg : (Doc.dict kvs).getItem (.s p) with
        | ok nd =>
          obtain ⟨d', h⟩ := ih false nd (by simp) (fun pre post xs he hre => by
            refine hl (p :: pre) post xs (by simp [he]) ?_
            rw [← reach_iff] at hre ⊢
            rw [resolveParts_cons]
            exact ⟨nd, by simpa [partIdx, Doc.isSeq] using hg, hre⟩)
          simp only [h]; exact ⟨_, rfl⟩
        | error e =>
          cases e with
          | type => simp [Doc.getItem] at hg; split at hg <;> cases hg
          | lookup => exact ⟨_, rfl⟩
      | _ =>
        have hr' : r = false := by
          cases r with
          | false => rfl
          | true => obtain ⟨kvs, h⟩ := hr rfl; cases h
        subst hr'
        exact ⟨_, rfl⟩
  unfold setJsonPointer
  rw [iterParts_pointerOf]
  cases parts with
  | nil => exact absurd rfl hne
  | cons p ps => exact key (p :: ps) true _ (fun _ => ⟨kvs, rfl⟩) hl

/-- C05. The index `-` appends: after setting at the end of a list addressed by `parts`, that list
has the new value as its only new, last, element. -/
theorem C05_set_dash_appends (d d' v : Doc) (parts : List Str) (xs : List Doc)
    (hn : NatIndexed d parts) (hr : Reach d parts (.list xs))
    (h : setJsonPointer d (pointerOf (parts ++ [['-']])) v = .ok d') :
    Reach d' parts (.list (xs ++ [v])) := by
  have key : ∀ (parts : List Str) (r : Bool) (d d' : Doc), NatIndexed d parts →
      resolveParts d parts = some (.list xs) → setParts r v d (parts ++ [['-']]) = .ok d' →
      resolveParts d' parts = some (.list (xs ++ [v])) := by
    intro parts
    induction parts with
    | nil =>
      intro r d d' _ hr h
      simp only [resolveParts, Option.some.injEq] at hr
      subst hr
      simp only [List.nil_append, setParts, setIdx, if_true] at h
      have hg : (Doc.list xs).getItem (.i xs.length) = .error .lookup := by
        simp [Doc.getItem, seqIndex_nat]
      simp only [hg, Except.ok.injEq] at h
      subst h
      simp [attach, seqIndex_nat, mkBranch, resolveParts]
    | cons p ps ih =>
      intro r d d' hn hr h
      obtain ⟨nd, hg, hr'⟩ := (resolveParts_cons _ _ _ _).1 hr
      have hn' := natIndexed_tail hn hg
      simp only [List.cons_append, setParts] at h
      cases d with
      | dict kvs =>
        simp only [partIdx, Doc.isSeq, Bool.false_eq_true, if_false] at hg
        simp only [setIdx, hg] at h
        cases hs : setParts false v nd (ps ++ [['-']]) with
        | error e => simp [hs] at h
        | ok nd' =>
          simp only [hs, Except.ok.injEq] at h; subst h
          rw [resolveParts_cons]
          exact ⟨nd', by simp [attach, partIdx, Doc.isSeq, Doc.getItem], ih _ _ _ hn' hr' hs⟩
      | list ys =>
        obtain ⟨n, hp⟩ := hn [] p ps ys rfl (.nil _)
        have hd : p ≠ ['-'] := by
          intro e; subst e; simp [show pyInt ['-'] = none by rfl] at hp
        simp only [partIdx, Doc.isSeq, if_true, hp] at hg
        obtain ⟨j, hj, hx⟩ := (getItem_list _ _ _).1 hg
        rw [seqIndex_nat] at hj
        split at hj
        · next hlt =>
          injection hj with hj; subst hj
          have hng : ¬ ((n : Int) > ys.length) := by omega
          simp only [setIdx, hd, if_false, hp, hng, hg] at h
          cases hs : setParts false v nd (ps ++ [['-']]) with
          | error e => simp [hs] at h
          | ok nd' =>
            simp only [hs, Except.ok.injEq] at h; subst h
            rw [resolveParts_cons]
            refine ⟨nd', ?_, ih _ _ _ hn' hr' hs⟩
            simp [attach, seqIndex_nat, hlt, partIdx, Doc.isSeq, hp, Doc.getItem]
        · cases hj
      | str cs =>
        simp only [setIdx, Doc.getItem] at h
        simp only [partIdx, Doc.isSeq, if_true] at hg
        cases hp : pyInt p with
        | none => simp [hp, Doc.getItem] at hg
        | some n =>
          simp only [hp] at hg
          obtain ⟨j, c, _, _, rfl⟩ := (getItem_str _ _ _).1 hg
          -- a string never leads to a list
          have : ∀ (ps : List Str) (s : Str) (xs : List Doc), resolveParts (.str s) ps ≠ some (.list xs) := by
            intro ps
            induction ps with
            | nil => intro s xs h; simp [resolveParts] at h
            | cons q qs ih2 =>
              intro s xs h
              obtain ⟨e, he, h2⟩ := (resolveParts_cons _ _ _ _).1 h
              simp only [partIdx, Doc.isSeq, if_true] at he
              cases hq : pyInt q with
              | none => simp [hq, Doc.getItem] at he
              | some m =>
                simp only [hq] at he
                obtain ⟨_, c, _, _, rfl⟩ := (getItem_str _ _ _).1 he
                exact ih2 _ _ h2
          exact absurd hr' (this _ _ _)
      | null => simp [partIdx, Doc.isSeq, Doc.getItem] at hg
      | bool b => simp [partIdx, Doc.isSeq, Doc.getItem] at hg
      | int b => simp [partIdx, Doc.isSeq, Doc.getItem] at hg
      | atom b => simp [partIdx, Doc.isSeq, Doc.getItem] at hg
  rw [← reach_iff] at hr ⊢
  unfold setJsonPointer at h
  rw [iterParts_pointerOf] at h
  cases hps : parts ++ [['-']] with
  | nil => simp at hps
  | cons q qs =>
    rw [hps] at h
    simp only at h
    exact key parts true d d' hn hr (by rw [hps]; exact h)

example : setJsonPointer (.dict [("l".toList, .list [.int 1])]) "/l/-".toList (.int 2)
    = .ok (.dict [("l".toList, .list [.int 1, .int 2])]) := by rfl

/-- C05, what fails without the restriction: a negative index beyond the start of a list is
accepted by set, which then *appends* the value, and the value is not found at the pointer. -/
theorem C05_set_get_refuted_negative :
    ∃ (d d' v : Doc) (parts : List Str), setJsonPointer d (pointerOf parts) v = .ok d' ∧
      resolveJsonPointer d' (pointerOf parts) none ≠ .ok v := by
  refine ⟨.dict [("l".toList, .list [.int 1])],
    .dict [("l".toList, .list [.int 1, .int 2])], .int 2, ["l".toList, "-5".toList], rfl, ?_⟩
  show Except.error PyErr.refResolution ≠ _
  simp

/-! ### C06 -/

/-- C06. Pointers that part ways with the pointer being set resolve as before. -/
theorem C06_set_frame (d d' v : Doc) (ps qs : List Str) (hd : Diverge d ps qs)
    (h : setJsonPointer d (pointerOf ps) v = .ok d') (dflt : Option Doc) :
    resolveJsonPointer d' (pointerOf qs) dflt = resolveJsonPointer d (pointerOf qs) dflt := by
  unfold setJsonPointer at h
  rw [iterParts_pointerOf] at h
  cases ps with
  | nil => cases h
  | cons p ps =>
    simp only at h
    simp only [resolveJsonPointer, iterParts_pointerOf, setParts_frame hd true v d' h]

example : Diverge sampleDoc ["a".toList, "b/c".toList, "1".toList, "z".toList]
    ["a".toList, "b/c".toList, "0".toList] :=
  .belowKey [] _ _ _ _ _ (by simp) <| .belowKey [] _ _ _ _ _ (by simp) <|
    .idx _ _ _ _ _ 1 0 (Or.inl rfl) rfl (by decide)

example : ∃ d', setJsonPointer sampleDoc
    (pointerOf ["a".toList, "b/c".toList, "1".toList, "z".toList]) .null = .ok d' := ⟨_, rfl⟩

/-! ### C07 -/

/-- C07 is violated: setting at the empty pointer never raises `RefResolutionError` but always
`UnboundLocalError`. -/
theorem C07_empty_pointer_refuted (d v : Doc) :
    setJsonPointer d [] v = .error .unboundLocal := rfl

/-- C07, what holds: setting at the empty pointer always fails, and pointers that are malformed
raise the documented error. Missing: the documented error for the empty pointer. -/
theorem C07_bad_pointer_partial (d v : Doc) (ptr : Str) (h : ptr.head? ≠ some '/') :
    ∃ e, setJsonPointer d ptr v = .error e ∧ (ptr ≠ [] → e = .refResolution) := by
  cases ptr with
  | nil => exact ⟨_, rfl, by simp⟩
  | cons c t =>
    have hc : c ≠ '/' := by simpa using h
    unfold setJsonPointer iterParts
    simp only [splitOn, hc, if_false]
    cases hs : splitOn '/' t with
    | nil => exact absurd hs (splitOn_ne_nil _ _)
    | cons p ps => exact ⟨_, rfl, fun _ => rfl⟩

/-! ### C08 -/

/-- Documents without attribute-branches. -/
def noAttr : Doc → Str → Option Doc := fun _ _ => none

/-- The document where absolute paths start. A false-like root (e.g. an empty object) counts as
missing. -/
def startOf (root : Option Doc) (doc : Doc) : Doc :=
  match root with
  | some r => if r.truthy then r else doc
  | none => doc

theorem resolvePathPart_noAttr (root : Option Doc) (d : Doc) (p : Str) (hp : p ≠ []) :
    resolvePathPart noAttr root d p
      = match d.getItem (partIdx d p) with | .ok x => some x | .error _ => none := by
  unfold resolvePathPart partIdx noAttr
  simp only [hp, if_false, Option.or_none]
  cases d with
  | list xs =>
    simp only [Doc.isSeq, if_true]
    cases hi : pyInt p with
    | none => simp [Doc.getItem]
    | some n =>
      simp only
      cases (Doc.list xs).getItem (.i n) <;> simp [Doc.getItem]
  | str cs =>
    simp only [Doc.isSeq, if_true]
    cases hi : pyInt p with
    | none => simp [Doc.getItem]
    | some n =>
      simp only
      cases (Doc.str cs).getItem (.i n) <;> simp [Doc.getItem]
  | dict kvs => simp [Doc.isSeq]; cases (Doc.dict kvs).getItem (.s p) <;> rfl
  | null => simp [Doc.isSeq, Doc.getItem]
  | bool b => simp [Doc.isSeq, Doc.getItem]
  | int b => simp [Doc.isSeq, Doc.getItem]
  | atom b => simp [Doc.isSeq, Doc.getItem]

theorem resolvePathParts_noAttr (root : Option Doc) (parts : List Str) (hp : ∀ p ∈ parts, p ≠ []) :
    ∀ d : Doc, resolvePathParts noAttr root d parts = resolveParts d parts := by
  induction parts with
  | nil => intro d; rfl
  | cons p ps ih =>
    intro d
    simp only [resolvePathParts, resolveParts, resolvePathPart_noAttr root d p (hp p (by simp))]
    cases d.getItem (partIdx d p) with
    | error e => rfl
    | ok x => exact ih (fun q hq => hp q (by simp [hq])) x

theorem resolvePathPart_step (root : Option Doc) (d : Doc) (p : Str) (c : Doc) :
    resolvePathPart noAttr root d p = some c ↔
      Reach d [p] c ∨ (p = [] ∧ (∀ x, ¬ Reach d [[]] x) ∧ c = startOf root d) := by
  have hone : ∀ q x, Reach d [q] x ↔ d.getItem (partIdx d q) = .ok x := by
    intro q x
    rw [← reach_iff]
    simp only [resolveParts]
    cases d.getItem (partIdx d q) <;> simp
  by_cases hp : p = []
  · subst hp
    have hi : partIdx d [] = .s [] := by
      unfold partIdx
      have : pyInt [] = none := by rfl
      rw [this]
      split <;> rfl
    have h0 : resolvePathPart noAttr root d [] =
        match d.getItem (.s []) with | .ok x => some x | .error _ => some (startOf root d) := by
      have hi : pyInt [] = none := by rfl
      unfold resolvePathPart noAttr startOf
      simp only [hi, if_true]
      cases d.getItem (.s []) with
      | ok x => cases d.isSeq <;> simp
      | error e =>
        cases root with
        | none => cases d.isSeq <;> simp
        | some r => cases d.isSeq <;> by_cases ht : r.truthy = true <;> simp [ht]
    rw [h0]
    simp only [hone, hi, true_and]
    cases d.getItem (.s []) with
    | ok x => simp
    | error e => simp [eq_comm]
  · rw [resolvePathPart_noAttr root d p hp, hone]
    simp only [hp, false_and, or_false]
    cases d.getItem (partIdx d p) <;> simp

theorem resolvePathParts_walked (root : Option Doc) (parts : List Str) : ∀ (d v : Doc),
    resolvePathParts noAttr root d parts = some v ↔ Walked root d parts v := by
  induction parts with
  | nil =>
    intro d v
    simp only [resolvePathParts, Option.some.injEq]
    constructor
    · rintro rfl; exact .stop _
    · intro h; cases h; rfl
  | cons p ps ih =>
    intro d v
    have hstart : ∀ {r : Doc}, root = some r → r.truthy = true → startOf root d = r := by
      rintro r rfl h; simp [startOf, h]
    have hstay : (∀ r, root = some r → r.truthy = false) → startOf root d = d := by
      intro h
      cases root with
      | none => rfl
      | some r => simp [startOf, h r rfl]
    simp only [resolvePathParts]
    constructor
    · intro h
      cases hs : resolvePathPart noAttr root d p with
      | none => rw [hs] at h; simp at h
      | some c =>
        rw [hs] at h
        have hw := (ih c v).1 h
        rcases (resolvePathPart_step root d p c).1 hs with h1 | ⟨rfl, h1, rfl⟩
        · exact .child _ _ _ _ _ h1 hw
        · by_cases hr : ∀ r, root = some r → r.truthy = false
          · rw [hstay hr] at hw
            exact .stay _ _ _ h1 hr hw
          · cases root with
            | none => exact absurd (fun r e => by cases e) hr
            | some r =>
              have ht : r.truthy = true := by
                cases hb : r.truthy with
                | true => rfl
                | false => exact absurd (fun r' e => by cases e; exact hb) hr
              rw [hstart rfl ht] at hw
              exact .toRoot _ r _ _ h1 rfl ht hw
    · intro h
      cases h with
      | child _ _ c _ _ h1 hw =>
        rw [(resolvePathPart_step root d p c).2 (.inl h1)]
        exact (ih c v).2 hw
      | toRoot _ r _ _ h1 hr ht hw =>
        rw [(resolvePathPart_step root d [] r).2 (.inr ⟨rfl, h1, (hstart hr ht).symm⟩)]
        exact (ih r v).2 hw
      | stay _ _ _ h1 hr hw =>
        rw [(resolvePathPart_step root d [] d).2 (.inr ⟨rfl, h1, (hstay hr).symm⟩)]
        exact (ih d v).2 hw

/-- C08. What every path resolves to, relative or absolute, with empty steps anywhere, in every document and with
every root. -/
theorem C08_exact (d : Doc) (root : Option Doc) (parts : List Str) (hne : parts ≠ []) (v : Doc) :
    resolvePath noAttr d (join ['/'] (parts.map esc)) none root = .ok v ↔ Walked root d parts v := by
  have hs : iterPartsRelaxed (join ['/'] (parts.map esc)) = parts := by
    unfold iterPartsRelaxed
    rw [splitOn_join _ (by simpa using hne)]
    · simp [Function.comp_def, unescape_esc]
    · intro p hp
      obtain ⟨q, _, rfl⟩ := List.mem_map.1 hp
      exact slash_not_mem_esc q
  simp only [resolvePath, hs, ← resolvePathParts_walked]
  cases resolvePathParts noAttr root d parts <;> simp

/-- An absolute path, an empty step in the middle that leads to the root, and one that is the name of a child. -/
example : resolvePath noAttr (.dict [("a".toList, .int 1)]) "a//b".toList none (some (.dict [("b".toList, .int 2)])) = .ok (.int 2) ∧
    Walked (some (.dict [("b".toList, .int 2)])) (.dict [("a".toList, .int 1)]) ["a".toList, [], "b".toList] (.int 2) ∧
    Walked (some (.dict [("b".toList, .int 2)])) (.dict [([], .int 1)]) [[]] (.int 1) := by
  refine ⟨by rfl, (C08_exact _ _ _ (by simp) _).1 (by rfl), (C08_exact _ _ _ (by simp) _).1 (by rfl)⟩

/-- C08. A relative path of non-empty steps resolves from the document, whatever the root. -/
theorem C08_relative (d : Doc) (root : Option Doc) (parts : List Str) (hne : parts ≠ [])
    (hp : ∀ p ∈ parts, p ≠ []) (v : Doc) :
    resolvePath noAttr d (join ['/'] (parts.map esc)) none root = .ok v ↔ Reach d parts v := by
  have hs : iterPartsRelaxed (join ['/'] (parts.map esc)) = parts := by
    unfold iterPartsRelaxed
    rw [splitOn_join _ (by simpa using hne)]
    · simp [Function.comp_def, unescape_esc]
    · intro p hp
      obtain ⟨q, _, rfl⟩ := List.mem_map.1 hp
      exact slash_not_mem_esc q
  simp only [resolvePath, hs, resolvePathParts_noAttr root parts hp, ← reach_iff]
  cases resolveParts d parts <;> simp

example : resolvePath noAttr sampleDoc "a/b~1c/0".toList none (some (.list [.null])) = .ok (.int 10) := by rfl

/-- C08. An absolute path starts at the root if there is one, else at the document — when the
document itself has no child under the empty key. Missing for the full claim: documents with an
empty key, see `C08_absolute_refuted`. -/
theorem C08_absolute_partial (d : Doc) (root : Option Doc) (parts : List Str)
    (hd : ∀ kvs, d = .dict kvs → [] ∉ kvs.map Prod.fst) (hp : ∀ p ∈ parts, p ≠ []) (v : Doc) :
    resolvePath noAttr d (pointerOf parts) none root = .ok v ↔ Reach (startOf root d) parts v := by
  have hs : iterPartsRelaxed (pointerOf parts) = [] :: parts := by
    simp [iterPartsRelaxed, splitOn_pointerOf, Function.comp_def, unescape_esc]
    decide
  have h0 : resolvePathPart noAttr root d [] = some (startOf root d) := by
    have hi : pyInt [] = none := by rfl
    unfold resolvePathPart noAttr startOf
    simp only [hi, if_true]
    have hb : ∃ e, d.getItem (.s []) = .error e := by
      cases d with
      | dict kvs => exact ⟨.lookup, by simp [Doc.getItem, (dget_eq_none_iff kvs []).2 (hd kvs rfl)]⟩
      | _ => exact ⟨_, rfl⟩
    obtain ⟨e, hb⟩ := hb
    rw [hb]
    cases root with
    | none => cases d.isSeq <;> simp
    | some r => cases d.isSeq <;> by_cases ht : r.truthy = true <;> simp [ht]
  simp only [resolvePath, hs, resolvePathParts, h0, resolvePathParts_noAttr root parts hp, ← reach_iff]
  cases resolveParts (startOf root d) parts <;> simp

example : resolvePath noAttr sampleDoc "/0".toList none (some (.list [.int 3])) = .ok (.int 3) := by rfl
example : resolvePath noAttr sampleDoc "/-".toList none none = .ok .null := by rfl

/-- C08, the excluded point: with an empty key in the document, an absolute path does not start at
the given root. -/
theorem C08_absolute_refuted :
    ∃ (d r : Doc) (parts : List Str) (v : Doc), Reach r parts v ∧ r.truthy = true ∧
      resolvePath noAttr d (pointerOf parts) none (some r) ≠ .ok v := by
  refine ⟨.dict [([], .dict [])], .dict [("a".toList, .int 1)], ["a".toList], .int 1,
    .key [] [] _ _ _ _ (by simp) (.nil _), rfl, ?_⟩
  show Except.error PyErr.refResolution ≠ _
  simp

/-- C08. Without a root, absolute resolution agrees with json-pointer resolution. -/
theorem C08_agrees_with_pointer (d : Doc) (parts : List Str)
    (hd : ∀ kvs, d = .dict kvs → [] ∉ kvs.map Prod.fst) (hp : ∀ p ∈ parts, p ≠ []) (v : Doc) :
    resolvePath noAttr d (pointerOf parts) none none = .ok v ↔
      resolveJsonPointer d (pointerOf parts) none = .ok v := by
  rw [C08_absolute_partial d none parts hd hp v, (C03_resolve_exact d parts v).1]
  rfl

/-- C08. The default is returned exactly when resolution fails, for every document (with or
without attribute-branches), root and path; and the only failure is `RefResolutionError`. -/
theorem C08_default (attr : Doc → Str → Option Doc) (d : Doc) (root : Option Doc) (path : Str) (dflt : Doc) :
    (∃ v, resolvePath attr d path none root = .ok v ∧ resolvePath attr d path (some dflt) root = .ok v) ∨
    (resolvePath attr d path none root = .error .refResolution ∧
      resolvePath attr d path (some dflt) root = .ok dflt) := by
  unfold resolvePath
  cases resolvePathParts attr root d (iterPartsRelaxed path) with
  | none => right; exact ⟨rfl, rfl⟩
  | some v => left; exact ⟨v, rfl, rfl⟩

/-- C08. Attributes are tried only after keys: a key always wins over an attribute of that name. -/
theorem C08_key_beats_attribute (attr : Doc → Str → Option Doc) (root : Option Doc) (kvs : List (Str × Doc))
    (k : Str) (v : Doc) (h : dget kvs k = some v) :
    resolvePath attr (.dict kvs) (esc k) none root = .ok v := by
  have hs : iterPartsRelaxed (esc k) = [k] := by
    simp [iterPartsRelaxed, splitOn_of_not_mem (slash_not_mem_esc k), unescape_esc]
  simp [resolvePath, hs, resolvePathParts, resolvePathPart, Doc.isSeq, Doc.getItem, h]

/-! ### C66 -/

/-- C66 is violated: `Pandel.get` never returns the value found at the path, unless it is null. -/
theorem C66_get_refuted (m v : Doc) (path : Str) (dflt : Option Doc)
    (h : resolveJsonPointer m path dflt = .ok v) (hv : v ≠ .null) :
    pandelGet m path dflt ≠ .ok v := by
  simp only [pandelGet, h]
  intro e
  injection e with e
  exact hv e.symm

/-- C66, what holds: it raises exactly when resolution raises. Missing: returning the value. -/
theorem C66_get_raises_partial (m : Doc) (path : Str) (dflt : Option Doc) (e : PyErr) :
    pandelGet m path dflt = .error e ↔ resolveJsonPointer m path dflt = .error e := by
  unfold pandelGet
  cases resolveJsonPointer m path dflt <;> simp

example : resolveJsonPointer sampleDoc "/a/b~1c/0".toList none = .ok (.int 10) := by rfl

end Props
