import Verif.Model.Parse
import Verif.Spec.CallSpec
/-
C44: call-specifications.
-/
set_option linter.unusedSimpArgs false
namespace Props
open Py Model Spec

private theorem items_ok {f : Str} {d e A K : Doc} (h : parseCallItems d e = .ok (A, K)) :
    (∃ a k, ArgsForm A a ∧ KwdsForm K k ∧ CallForm (.list [.str f, d, e]) f a k) := by
  unfold parseCallItems at h
  split at h <;> simp at h <;> obtain ⟨rfl, rfl⟩ := h
  · exact ⟨_, _, .list _, .dict _, .listArgsKwds _ _ _ _ _ (.list _) (.dict _)⟩
  · exact ⟨_, _, .list _, .dict _, .listKwdsArgs _ _ _ _ _ (.dict _) (.list _)⟩
  · exact ⟨_, _, .list _, .null, .listArgsKwds _ _ _ _ _ (.list _) .null⟩
  · exact ⟨_, _, .list _, .null, .listKwdsArgs _ _ _ _ _ .null (.list _)⟩
  · exact ⟨_, _, .null, .dict _, .listKwdsArgs _ _ _ _ _ (.dict _) .null⟩
  · exact ⟨_, _, .null, .dict _, .listArgsKwds _ _ _ _ _ .null (.dict _)⟩
  · exact ⟨_, _, .null, .null, .listArgsKwds _ _ _ _ _ .null .null⟩

private theorem items_ok1 {f : Str} {d A K : Doc} (h : parseCallItems d .null = .ok (A, K)) :
    (∃ a k, ArgsForm A a ∧ KwdsForm K k ∧ CallForm (.list [.str f, d]) f a k) := by
  unfold parseCallItems at h
  split at h <;> simp at h <;> obtain ⟨rfl, rfl⟩ := h
  all_goals rename_i e1
  all_goals try (cases e1; done)
  · exact ⟨_, _, .list _, .null, .listArgs _ _ _ (.list _)⟩
  · exact ⟨_, _, .null, .dict _, .listKwds _ _ _ (.dict _)⟩
  · exact ⟨_, _, .null, .null, .listArgs _ _ _ .null⟩

private theorem args_of {A : Doc} {a : List Doc} (h : ArgsForm A a) :
    (match A with | .null => some [] | .list a => some a | _ => (none : Option (List Doc))) = some a := by
  cases h <;> rfl

private theorem kwds_of {K : Doc} {k : List (Str × Doc)} (h : KwdsForm K k) :
    (match K with | .null => some [] | .dict k => some k | _ => (none : Option (List (Str × Doc)))) = some k := by
  cases h <;> rfl

private theorem finish {d f A K : Doc} {r : CallSpec} (hs : splitCallSpec d = .ok (f, A, K))
    (h : parseCallSpec d = .ok r) : f = .str r.func ∧ ArgsForm A r.args ∧ KwdsForm K r.kwds := by
  unfold parseCallSpec at h
  rw [hs] at h
  simp only at h
  cases f with
  | str f =>
    cases A <;> simp at h <;> cases K <;> simp at h <;> subst h <;>
      refine ⟨rfl, by constructor, by constructor⟩
  | _ => simp at h

private theorem finish' {d A K : Doc} {f : Str} {a : List Doc} {k : List (Str × Doc)}
    (hs : splitCallSpec d = .ok (.str f, A, K)) (ha : ArgsForm A a) (hk : KwdsForm K k) :
    parseCallSpec d = .ok ⟨f, a, k⟩ := by
  unfold parseCallSpec
  rw [hs]
  cases ha <;> cases hk <;> rfl

private theorem argsForm_unique {d : Doc} {a b : List Doc} (h : ArgsForm d a) (h' : ArgsForm d b) : a = b := by
  cases h <;> cases h' <;> rfl

private theorem kwdsForm_unique {d : Doc} {a b : List (Str × Doc)} (h : KwdsForm d a) (h' : KwdsForm d b) : a = b := by
  cases h <;> cases h' <;> rfl

private theorem accepted {d : Doc} {f : Str} {a : List Doc} {k : List (Str × Doc)} (h : CallForm d f a k) :
    parseCallSpec d = .ok ⟨f, a, k⟩ := by
  cases h with
  | name => rfl
  | list1 => rfl
  | listArgs => rename_i h; cases h <;> rfl
  | listKwds => rename_i h; cases h <;> rfl
  | listArgsKwds => rename_i h1 h2; cases h1 <;> cases h2 <;> rfl
  | listKwdsArgs => rename_i h1 h2; cases h1 <;> cases h2 <;> rfl
  | object =>
    rename_i kvs h1 h2 h3 h4 h5 h6
    have hall : kvs.all (fun p => ["func".toList, "args".toList, "kwds".toList].contains p.1) = true := by
      rw [List.all_eq_true]
      intro p hp
      rcases h1 p hp with e | e | e <;> rw [e] <;> decide
    refine finish' (A := (dget kvs "args".toList).getD .null) (K := (dget kvs "kwds".toList).getD .null) ?_ ?_ ?_
    · simp only [splitCallSpec, hall, if_true, h2]
    · cases hd : dget kvs "args".toList with
      | none => rw [h4 hd]; exact .null
      | some d => exact h3 d hd
    · cases hd : dget kvs "kwds".toList with
      | none => rw [h6 hd]; exact .null
      | some d => exact h5 d hd

private theorem only_forms {d : Doc} {r : CallSpec} (h : parseCallSpec d = .ok r) :
    CallForm d r.func r.args r.kwds := by
  obtain ⟨rf, ra, rk⟩ := r
  match hs : splitCallSpec d with
  | .error e => unfold parseCallSpec at h; rw [hs] at h; simp at h
  | .ok (f, A, K) =>
    obtain ⟨hf, ha, hk⟩ := finish hs h
    simp only at hf ha hk
    subst hf
    unfold splitCallSpec at hs
    split at hs
    · simp at hs; obtain ⟨rfl, rfl, rfl⟩ := hs
      cases ha; cases hk
      exact .name _
    · simp [parseCallItems, Except.map] at hs
      obtain ⟨rfl, rfl, rfl⟩ := hs
      cases ha; cases hk
      exact .list1 _
    · rename_i g d'
      match hi : parseCallItems d' .null with
      | .error e => rw [hi] at hs; simp [Except.map] at hs
      | .ok (A', K') =>
        rw [hi] at hs; simp [Except.map] at hs
        obtain ⟨rfl, rfl, rfl⟩ := hs
        obtain ⟨a, k, h1, h2, h3⟩ := items_ok1 (f := rf) hi
        rw [argsForm_unique ha h1, kwdsForm_unique hk h2]; exact h3
    · rename_i g d' e'
      match hi : parseCallItems d' e' with
      | .error e => rw [hi] at hs; simp [Except.map] at hs
      | .ok (A', K') =>
        rw [hi] at hs; simp [Except.map] at hs
        obtain ⟨rfl, rfl, rfl⟩ := hs
        obtain ⟨a, k, h1, h2, h3⟩ := items_ok (f := rf) hi
        rw [argsForm_unique ha h1, kwdsForm_unique hk h2]; exact h3
    · simp at hs
    · rename_i kvs
      split at hs
      · rename_i hall
        split at hs
        · rename_i g hg
          simp only [Except.ok.injEq, Prod.mk.injEq] at hs
          obtain ⟨rfl, rfl, rfl⟩ := hs
          refine .object kvs _ _ _ ?_ hg ?_ ?_ ?_ ?_
          · intro p hp
            have := List.all_eq_true.1 hall p hp
            simpa using this
          · intro d hd; rw [hd] at ha; exact ha
          · intro hd; rw [hd] at ha; cases ha; rfl
          · intro d hd; rw [hd] at hk; exact hk
          · intro hd; rw [hd] at hk; cases hk; rfl
        · simp at hs
      · simp at hs
    · simp at hs

/-- C44. A filter specification is accepted exactly in the documented forms, and read as they say. -/
theorem C44_accepted_iff (d : Doc) (f : Str) (a : List Doc) (k : List (Str × Doc)) :
    parseCallSpec d = .ok ⟨f, a, k⟩ ↔ CallForm d f a k :=
  ⟨fun h => only_forms h, accepted⟩

example : CallForm (.list [.str "f".toList, .dict [("k".toList, .int 1)], .list [.null]]) "f".toList [.null]
    [("k".toList, .int 1)] := .listKwdsArgs _ _ _ _ _ (.dict _) (.list _)

/-- C44. Each specification has at most one reading. -/
theorem C44_unique (d : Doc) (f f' : Str) (a a' : List Doc) (k k' : List (Str × Doc))
    (h : CallForm d f a k) (h' : CallForm d f' a' k') : f = f' ∧ a = a' ∧ k = k' := by
  have := (accepted h).symm.trans (accepted h')
  simpa using this

private theorem items_err {d e : Doc} {x : PyErr} (h : parseCallItems d e = .error x) : x = .valueError := by
  unfold parseCallItems at h
  split at h <;> simp at h
  exact h.symm

private theorem split_err {d : Doc} {x : PyErr} (h : splitCallSpec d = .error x) : x = .valueError := by
  unfold splitCallSpec at h
  split at h
  · simp at h
  · simp [parseCallItems, Except.map] at h
  · rename_i g d'
    match hi : parseCallItems d' .null with
    | .error e => rw [hi] at h; simp [Except.map] at h; rw [← h]; exact items_err hi
    | .ok p => rw [hi] at h; simp [Except.map] at h
  · rename_i g d' e'
    match hi : parseCallItems d' e' with
    | .error e => rw [hi] at h; simp [Except.map] at h; rw [← h]; exact items_err hi
    | .ok p => rw [hi] at h; simp [Except.map] at h
  · simpa using h.symm
  · split at h
    · split at h
      · simp at h
      · simpa using h.symm
    · simpa using h.symm
  · simpa using h.symm

/-- C44. Anything else raises `ValueError`. -/
theorem C44_otherwise_valueError (d : Doc) (h : ∀ f a k, ¬ CallForm d f a k) :
    parseCallSpec d = .error .valueError := by
  match hp : parseCallSpec d with
  | .ok r => exact absurd (only_forms hp) (h _ _ _)
  | .error e =>
    congr 1
    unfold parseCallSpec at hp
    match hs : splitCallSpec d with
    | .error x => rw [hs] at hp; simp at hp; rw [← hp]; exact split_err hs
    | .ok (f, A, K) =>
      rw [hs] at hp
      simp only at hp
      cases f with
      | str f =>
        cases A <;> simp at hp <;> first | exact hp.symm | (cases K <;> simp at hp <;> exact hp.symm)
      | _ => simpa using hp.symm

example : parseCallSpec (.list [.str "f".toList, .list [], .list []]) = .error .valueError := rfl

end Props
