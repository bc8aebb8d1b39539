import Verif.Lemmas.PointerHeap
import Verif.Lemmas.JsonPointer
/-
C136: what setting at a json-pointer does to objects.
-/
namespace Props
open Py Model Spec Lemmas

private theorem setH_parts (h : Heap) (doc : Val) (parts : List Str) (value : Val) :
    setJsonPointerH h doc (pointerOf parts) value = setLoopH value none h doc parts := by
  unfold setJsonPointerH
  rw [iterParts_pointerOf]

/-- C136. Setting at a pointer writes into one entry of one object, which is there before and is on the way of the pointer: the
entry named by the part that follows. All other objects that are there before stay as they are. -/
theorem C136_one (h h' : Heap) (doc value : Val) (parts : List Str) (hs : setJsonPointerH h doc (pointerOf parts) value = (h', none)) :
    ∃ pre p post t a b, parts = pre ++ p :: post ∧ WayTo h doc pre t ∧ h[t]? = some a ∧ h'[t]? = some b ∧ OneEntry p a b ∧
      ∀ m, m < h.length → m ≠ t → h'[m]? = h[m]? := by
  rw [setH_parts] at hs
  cases parts with
  | nil => injection hs with _ hs; cases hs
  | cons part parts =>
    unfold setLoopH at hs
    split at hs
    · injection hs with _ hs; cases hs
    · next idx hidx =>
      split at hs
      · next l0 hg =>
        obtain ⟨k1, k2⟩ := branchH_kept value parts h
        injection hs with hs _
        subst hs
        cases ho0 : h[l0]? with
        | none => simp [getItemH, asDict, asList, ho0] at hg
        | some o0 =>
          have hlt0 := (List.getElem?_eq_some_iff.1 ho0).1
          refine ⟨[], part, parts, l0, o0, _, rfl, .here l0, ho0, putH_self (by rw [k1 l0 hlt0]; exact ho0) _ _,
            putObj_oneEntry ho0 hidx _, ?_⟩
          intro m hm hne
          rw [putH_ne hne, k1 m hm]
      · next ndoc l0 hg =>
        cases ho0 : h[l0]? with
        | none => simp [getItemH, asDict, asList, ho0] at hg
        | some o0 =>
          obtain ⟨t, p, a, b, g1, g2, g3, g4, g5⟩ := setLoopH_one value parts h h' ndoc l0 idx part o0 ho0 hidx hs
          rcases g5 with ⟨rfl, rfl⟩ | ⟨pre, post, rfl, hw⟩
          · exact ⟨[], _, parts, _, a, b, rfl, .here _, g1, g2, g3, g4⟩
          · exact ⟨part :: pre, p, post, t, a, b, rfl, wayTo_step ho0 hidx hg hw, g1, g2, g3, g4⟩
      · injection hs with _ hs; cases hs

/-- C136. When setting fails, whatever the pointer, no object has been written to. -/
theorem C136_failed (h h' : Heap) (doc value : Val) (ptr : Str) (e : PyErr) (hs : setJsonPointerH h doc ptr value = (h', some e)) :
    h' = h := by
  unfold setJsonPointerH at hs
  split at hs
  · injection hs with hs _; exact hs.symm
  · exact setLoopH_failed value _ _ _ _ _ _ hs

/-- C136. A value that has no object on the way of the pointer inside is read as before. -/
theorem C136_others (h h' : Heap) (doc value other : Val) (parts : List Str) (e : Doc) (err : Option PyErr)
    (hs : setJsonPointerH h doc (pointerOf parts) value = (h', err)) (hr : Reads (whole h) other e)
    (ha : ∀ pre p post l, parts = pre ++ p :: post → WayTo h doc pre l → ¬ Inside h other l) : Reads (whole h') other e := by
  cases err with
  | some e => rw [C136_failed _ _ _ _ _ _ hs]; exact hr
  | none =>
    obtain ⟨pre, p, post, t, a, b, h1, h2, -, -, -, h3⟩ := C136_one h h' doc value parts hs
    exact reads_agree _ _ (fun m hm => h3 m (inside_lt hr hm) (by rintro rfl; exact ha pre p post _ h1 h2 hm)) hr

/-- C136. When no object is at two places in the document, and none is in the document and in the value, the document is after setting
what setting makes of a plain document, or setting fails in the same way. -/
theorem C136_document (h : Heap) (doc value : Val) (d dv : Doc) (ptr : Str) (hd : Reads (whole h) doc d) (hv : Reads (whole h) value dv)
    (hu : Unshared h doc) (ha : Apart h value doc) :
    (∀ d', setJsonPointer d ptr dv = .ok d' → ∃ h', setJsonPointerH h doc ptr value = (h', none) ∧ Reads (whole h') doc d') ∧
    (∀ e, setJsonPointer d ptr dv = .error e → setJsonPointerH h doc ptr value = (h, some e)) := by
  unfold setJsonPointer setJsonPointerH
  cases iterParts ptr with
  | error e => exact ⟨fun _ h => (by cases h), fun e' h => by injection h with h; rw [h]⟩
  | ok parts =>
    cases parts with
    | nil => exact ⟨fun _ h => (by cases h), fun e' h => by injection h with h; rw [← h]; rfl⟩
    | cons part parts =>
      simp only
      by_cases hs : ∀ l, doc ≠ .ref l
      · obtain ⟨s1, s2⟩ := scalar_reads hd hs
        obtain ⟨t1, t2⟩ := scalar_step (h := h) hs part
        simp only [setParts, s1, s2, setLoopH, t1, t2, if_true]
        exact ⟨fun _ h => (by cases h), fun e' h => by injection h with h; rw [h]⟩
      · have : ∃ l0, doc = .ref l0 := Classical.byContradiction fun hn => hs fun l e => hn ⟨l, e⟩
        obtain ⟨l0, rfl⟩ := this
        have hst := ref_step (loop_agrees parts) h l0 d part none true hd hv hu ha
        cases hsp : setParts true dv d (part :: parts) with
        | error e => rw [hsp] at hst; exact ⟨fun _ h => (by cases h), fun e' h => by injection h with h; rw [← h]; exact hst⟩
        | ok d' =>
          rw [hsp] at hst
          obtain ⟨h', i1, i2, -⟩ := hst
          exact ⟨fun _ h => by injection h with h; rw [← h]; exact ⟨h', i1, i2⟩, fun e' h => by cases h⟩

/-! ### Examples -/

/-- `{"a": {"x": 1}, "b": [5, {}]}` at 0, and `{"v": 2}` at 4. -/
private def heapA : Heap :=
  [.dict [("a".toList, .ref 1), ("b".toList, .ref 2)], .dict [("x".toList, .int 1)], .list [.int 5, .ref 3], .dict [], .dict [("v".toList, .int 2)]]

private def docA : Doc :=
  .dict [("a".toList, .dict [("x".toList, .int 1)]), ("b".toList, .list [.int 5, .dict []])]

private theorem readsA : Reads (whole heapA) (.ref 0) docA ∧ Reads (whole heapA) (.ref 4) (.dict [("v".toList, .int 2)]) :=
  ⟨.dict _ _ _ rfl (.cons _ _ _ _ _ (.dict _ _ _ rfl (.cons _ _ _ _ _ (.int _) .nil))
    (.cons _ _ _ _ _ (.list _ _ _ rfl (.cons _ _ _ _ (.int _) (.cons _ _ _ _ (.dict _ _ _ rfl .nil) .nil))) .nil)),
   .dict _ _ _ rfl (.cons _ _ _ _ _ (.int _) .nil)⟩

/-- A bound of what is inside. -/
private theorem inside_closed {h : Heap} {v : Val} (s : List Nat) (h0 : ∀ l, v = .ref l → l ∈ s)
    (h1 : ∀ l ∈ s, ∀ vs, h[l]? = some (.list vs) → ∀ m, .ref m ∈ vs → m ∈ s)
    (h2 : ∀ l ∈ s, ∀ kvs, h[l]? = some (.dict kvs) → ∀ k m, (k, .ref m) ∈ kvs → m ∈ s) {m : Nat} (hm : Inside h v m) : m ∈ s := by
  induction hm with
  | here l e => exact h0 l e
  | item l vs m _ g1 g2 ih => exact h1 l ih vs g1 m g2
  | entry l kvs k m _ g1 g2 ih => exact h2 l ih kvs g1 k m g2

private theorem insA4 {m : Nat} (hm : Inside heapA (.ref 4) m) : m ∈ [4] :=
  inside_closed [4] (by intro l e; injection e with e; simp [← e])
    (by intro l hl vs e; simp at hl; subst hl; cases e)
    (by intro l hl kvs e k m hm; simp at hl; subst hl; injection e with e; injection e with e; subst e; simp at hm) hm

private theorem insA1 {m : Nat} (hm : Inside heapA (.ref 1) m) : m ∈ [1] :=
  inside_closed [1] (by intro l e; injection e with e; simp [← e])
    (by intro l hl vs e; simp at hl; subst hl; cases e)
    (by intro l hl kvs e k m hm; simp at hl; subst hl; injection e with e; injection e with e; subst e; simp at hm) hm

private theorem insA3 {m : Nat} (hm : Inside heapA (.ref 3) m) : m ∈ [3] :=
  inside_closed [3] (by intro l e; injection e with e; simp [← e])
    (by intro l hl vs e; simp at hl; subst hl; cases e)
    (by intro l hl kvs e k m hm; simp at hl; subst hl; injection e with e; injection e with e; subst e; simp at hm) hm

private theorem insA2 {m : Nat} (hm : Inside heapA (.ref 2) m) : m ∈ [2, 3] :=
  inside_closed [2, 3] (by intro l e; injection e with e; simp [← e])
    (by
      intro l hl vs e m hm
      simp at hl
      rcases hl with rfl | rfl
      · injection e with e; injection e with e; subst e; simp at hm; simp [hm]
      · cases e)
    (by
      intro l hl kvs e k m hm
      simp at hl
      rcases hl with rfl | rfl
      · cases e
      · injection e with e; injection e with e; subst e; simp at hm) hm

private theorem unsharedA : Unshared heapA (.ref 0) := by
  refine .dict 0 [("a".toList, .ref 1), ("b".toList, .ref 2)] rfl ?_ ?_ ?_
  · intro kv hkv
    simp only [List.mem_cons, List.not_mem_nil, or_false] at hkv
    rcases hkv with rfl | rfl
    · exact .dict 1 [("x".toList, .int 1)] rfl (by intro kv hkv; simp at hkv; subst hkv; exact .scalar _ (by simp))
        (by intro kv hkv hi; simp at hkv; subst hkv; exact inside_scalar (by simp) hi) (by simp)
    · refine .list 2 [.int 5, .ref 3] rfl ?_ ?_ ?_
      · intro v hv
        simp only [List.mem_cons, List.not_mem_nil, or_false] at hv
        rcases hv with rfl | rfl
        · exact .scalar _ (by simp)
        · exact .dict 3 [] rfl (by simp) (by simp) (by simp)
      · intro v hv hi
        simp only [List.mem_cons, List.not_mem_nil, or_false] at hv
        rcases hv with rfl | rfl
        · exact inside_scalar (by simp) hi
        · have := insA3 hi; simp at this
      · simp only [List.pairwise_cons, List.mem_singleton, forall_eq, List.not_mem_nil, false_implies, implies_true, List.Pairwise.nil, and_true]
        exact fun m hm _ => inside_scalar (by simp) hm
  · intro kv hkv hi
    simp only [List.mem_cons, List.not_mem_nil, or_false] at hkv
    rcases hkv with rfl | rfl
    · have := insA1 hi; simp at this
    · have := insA2 hi; simp at this
  · simp only [List.pairwise_cons, List.mem_singleton, forall_eq, List.not_mem_nil, false_implies, implies_true, List.Pairwise.nil, and_true]
    intro m h1 h2
    have := insA1 h1
    have := insA2 h2
    simp_all

private theorem apartA : Apart heapA (.ref 4) (.ref 0) := by
  intro m h1 h2
  have e := insA4 h1
  have : m ∈ [0, 1, 2, 3] := inside_closed [0, 1, 2, 3] (by intro l e; injection e with e; simp [← e])
    (by
      intro l hl vs e m hm
      simp at hl
      rcases hl with rfl | rfl | rfl | rfl
      · cases e
      · cases e
      · injection e with e; injection e with e; subst e; simp at hm; simp [hm]
      · cases e)
    (by
      intro l hl kvs e k m hm
      simp at hl
      rcases hl with rfl | rfl | rfl | rfl
      · injection e with e; injection e with e; subst e; simp at hm; rcases hm with ⟨-, rfl⟩ | ⟨-, rfl⟩ <;> simp
      · injection e with e; injection e with e; subst e; simp at hm
      · cases e
      · injection e with e; injection e with e; subst e; simp at hm) h2
  simp_all

/-- The hypotheses of `C136_document` and `C136_others` are met; the setting creates a dictionary in the one that is in the list. -/
example : Reads (whole heapA) (.ref 0) docA ∧ Unshared heapA (.ref 0) ∧ Apart heapA (.ref 4) (.ref 0) ∧
    (setJsonPointerH heapA (.ref 0) "/b/1/n/m".toList (.ref 4)).2 = none :=
  ⟨readsA.1, unsharedA, apartA, by decide +kernel⟩

/-- The object on the way of the pointer is not inside of `{"x": 1}`. -/
example : ∀ pre p post l, ["b".toList, "0".toList] = pre ++ p :: post → WayTo heapA (.ref 0) pre l → ¬ Inside heapA (.ref 1) l := by
  intro pre p post l e hw hi
  have h1 := insA1 hi
  simp at h1
  subst h1
  match pre, e with
  | [], _ => cases hw
  | [a], e =>
    simp at e
    obtain ⟨rfl, -⟩ := e
    cases hw with
    | key _ kvs _ v _ _ g1 g2 g3 =>
      injection g1 with g1; injection g1 with g1; subst g1
      have : v = .ref 2 := by
        have g : dget [("a".toList, Val.ref 1), ("b".toList, Val.ref 2)] ['b'] = some (.ref 2) := by decide
        rw [g] at g2; injection g2 with g2; exact g2.symm
      subst this
      cases g3
    | item _ vs _ _ _ _ _ _ g1 => cases g1
  | a :: b :: r, e => simp at e

/-- An object at two places is written to once and seen twice: `{"a": x, "b": x}` with an empty dictionary `x`. -/
example : setJsonPointerH [.dict [("a".toList, .ref 1), ("b".toList, .ref 1)], .dict []] (.ref 0) "/a/k".toList (.int 1) =
    ([.dict [("a".toList, .ref 1), ("b".toList, .ref 1)], .dict [("k".toList, .int 1)]], none) := by decide +kernel

/-- A number on the way is replaced in the dictionary that has it. -/
example : setJsonPointerH heapA (.ref 0) "/a/x/y".toList (.int 1) =
    (heapA.set 1 (.dict [("x".toList, .ref 5)]) ++ [.dict [("y".toList, .int 1)]], none) := by decide +kernel

end Props
