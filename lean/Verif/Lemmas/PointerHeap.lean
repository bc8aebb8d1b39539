import Verif.Model.PointerHeap
import Verif.Spec.PointerHeap
import Verif.Lemmas.PandelHeap
import Verif.Lemmas.JsonPointerResolve
/-
Lemmas on setting at json-pointers on the heap.
-/
namespace Lemmas
open Py Model Spec

/-! ### Reading -/

theorem inside_item {h : Heap} {l : Nat} {vs : List Val} {v : Val} {m : Nat} (hl : h[l]? = some (.list vs)) (hv : v ∈ vs)
    (hm : Inside h v m) : Inside h (.ref l) m := by
  induction hm with
  | here m e => subst e; exact .item l vs m (.here l rfl) hl hv
  | item a ws b _ h1 h2 ih => exact .item a ws b ih h1 h2
  | entry a ws k b _ h1 h2 ih => exact .entry a ws k b ih h1 h2

theorem inside_entry {h : Heap} {l : Nat} {kvs : List (Str × Val)} {kv : Str × Val} {m : Nat} (hl : h[l]? = some (.dict kvs))
    (hv : kv ∈ kvs) (hm : Inside h kv.2 m) : Inside h (.ref l) m := by
  induction hm with
  | here m e => exact .entry l kvs kv.1 m (.here l rfl) hl (by rw [← e]; exact hv)
  | item a ws b _ h1 h2 ih => exact .item a ws b ih h1 h2
  | entry a ws k b _ h1 h2 ih => exact .entry a ws k b ih h1 h2

theorem inside_scalar {h : Heap} {v : Val} (hv : ∀ l, v ≠ .ref l) {m : Nat} (hm : Inside h v m) : False := by
  induction hm with
  | here m e => exact hv m e
  | item _ _ _ _ _ _ ih => exact ih
  | entry _ _ _ _ _ _ _ ih => exact ih

theorem readsList_agree {h h' : Heap} {ds : List Doc}
    (ih : ∀ d ∈ ds, ∀ v, (∀ m, Inside h v m → h'[m]? = h[m]?) → Reads (whole h) v d → Reads (whole h') v d) :
    ∀ vs, (∀ v ∈ vs, ∀ m, Inside h v m → h'[m]? = h[m]?) → ReadsList (whole h) vs ds → ReadsList (whole h') vs ds := by
  induction ds with
  | nil => intro vs _ hr; cases hr; exact .nil
  | cons d t iht =>
    intro vs hs hr
    cases hr with
    | cons v _ vs' _ h1 h2 =>
      exact .cons _ _ _ _ (ih d (by simp) v (hs v (by simp)) h1)
        (iht (fun d hd => ih d (by simp [hd])) vs' (fun v hv => hs v (by simp [hv])) h2)

theorem readsItems_agree {h h' : Heap} {ds : List (Str × Doc)}
    (ih : ∀ kd ∈ ds, ∀ v, (∀ m, Inside h v m → h'[m]? = h[m]?) → Reads (whole h) v kd.2 → Reads (whole h') v kd.2) :
    ∀ vs, (∀ kv ∈ vs, ∀ m, Inside h kv.2 m → h'[m]? = h[m]?) → ReadsItems (whole h) vs ds → ReadsItems (whole h') vs ds := by
  induction ds with
  | nil => intro vs _ hr; cases hr; exact .nil
  | cons d t iht =>
    intro vs hs hr
    cases hr with
    | cons k v _ vs' _ h1 h2 =>
      exact .cons _ _ _ _ _ (ih (k, _) (List.mem_cons_self ..) v (hs (k, v) (by simp)) h1)
        (iht (fun d hd => ih d (by simp [hd])) vs' (fun v hv => hs v (by simp [hv])) h2)

/-- What is read depends only on the objects inside. -/
theorem reads_agree {h h' : Heap} (d : Doc) : ∀ v, (∀ m, Inside h v m → h'[m]? = h[m]?) → Reads (whole h) v d → Reads (whole h') v d := by
  induction d using Doc.ind with
  | h0 => intro v _ hr; cases hr; exact .null
  | h1 b => intro v _ hr; cases hr; exact .bool _
  | h2 b => intro v _ hr; cases hr; exact .int _
  | h3 b => intro v _ hr; cases hr; exact .atom _
  | h4 b => intro v _ hr; cases hr; exact .str _
  | h5 ds ih =>
    intro v hs hr
    cases hr with
    | list l vs _ h1 h2 =>
      have h1' : h[l]? = some (.list vs) := h1
      exact .list l vs _ (by show h'[l]? = _; rw [hs l (.here l rfl)]; exact h1)
        (readsList_agree ih vs (fun v hv m hm => hs m (inside_item h1' hv hm)) h2)
  | h6 ds ih =>
    intro v hs hr
    cases hr with
    | dict l vs _ h1 h2 =>
      have h1' : h[l]? = some (.dict vs) := h1
      exact .dict l vs _ (by show h'[l]? = _; rw [hs l (.here l rfl)]; exact h1)
        (readsItems_agree ih vs (fun v hv m hm => hs m (inside_entry h1' hv hm)) h2)

theorem readsList_mem {g : View} {ds : List Doc} : ∀ {vs}, ReadsList g vs ds → ∀ {v}, v ∈ vs → ∃ d, Reads g v d := by
  induction ds with
  | nil => intro vs hr v hv; cases hr; simp at hv
  | cons d t ih =>
    intro vs hr v hv
    cases hr with
    | cons w _ vs' _ h1 h2 =>
      rcases List.mem_cons.1 hv with e | hv
      · exact ⟨_, e ▸ h1⟩
      · exact ih h2 hv

theorem readsItems_mem {g : View} {ds : List (Str × Doc)} : ∀ {vs}, ReadsItems g vs ds → ∀ {k v}, (k, v) ∈ vs → ∃ d, Reads g v d := by
  induction ds with
  | nil => intro vs hr k v hv; cases hr; simp at hv
  | cons d t ih =>
    intro vs hr k v hv
    cases hr with
    | cons _ w _ vs' _ h1 h2 =>
      rcases List.mem_cons.1 hv with e | hv
      · injection e with _ e
        exact ⟨_, e ▸ h1⟩
      · exact ih h2 hv

/-- What is inside of a value that can be read is on the heap. -/
theorem inside_lt {h : Heap} {v : Val} {m : Nat} {d : Doc} (hr : Reads (whole h) v d) (hm : Inside h v m) : m < h.length := by
  have key : ∃ e, Reads (whole h) (.ref m) e := by
    induction hm with
    | here m e => subst e; exact ⟨_, hr⟩
    | item a ws b _ h1 h2 ih =>
      obtain ⟨e, he⟩ := ih
      cases he with
      | list _ vs ds g1 g2 =>
        have : ws = vs := by
          have g1' : h[a]? = some (.list vs) := g1
          rw [h1] at g1'; injection g1' with g1'; injection g1'
        subst this
        exact readsList_mem g2 h2
      | dict _ vs ds g1 g2 =>
        have g1' : h[a]? = some (.dict vs) := g1
        rw [h1] at g1'; injection g1' with g1'; cases g1'
    | entry a ws k b _ h1 h2 ih =>
      obtain ⟨e, he⟩ := ih
      cases he with
      | dict _ vs ds g1 g2 =>
        have : ws = vs := by
          have g1' : h[a]? = some (.dict vs) := g1
          rw [h1] at g1'; injection g1' with g1'; injection g1'
        subst this
        exact readsItems_mem g2 h2
      | list _ vs ds g1 g2 =>
        have g1' : h[a]? = some (.list vs) := g1
        rw [h1] at g1'; injection g1' with g1'; cases g1'
  obtain ⟨e, he⟩ := key
  cases he with
  | list _ vs ds g1 g2 => exact (List.getElem?_eq_some_iff.1 (show h[m]? = _ from g1)).1
  | dict _ vs ds g1 g2 => exact (List.getElem?_eq_some_iff.1 (show h[m]? = _ from g1)).1

/-! ### Steps of the loop -/

theorem putH_length (h : Heap) (l : Nat) (i : Idx) (v : Val) : (putH h l i v).length = h.length := by
  unfold putH; split <;> simp

theorem putH_ne {h : Heap} {l m : Nat} (hm : m ≠ l) (i : Idx) (v : Val) : (putH h l i v)[m]? = h[m]? := by
  unfold putH
  split
  · rw [List.getElem?_set_ne (Ne.symm hm)]
  · rfl

theorem putH_self {h : Heap} {l : Nat} {o : Obj} (ho : h[l]? = some o) (i : Idx) (v : Val) : (putH h l i v)[l]? = some (putObj o i v) := by
  have hl := (List.getElem?_eq_some_iff.1 ho).1
  unfold putH
  simp only [ho]
  rw [List.getElem?_set_self hl]

theorem branchH_kept (v : Val) (ps : List Str) : ∀ h, Kept h.length h (branchH h v ps).1 ∧ h.length ≤ (branchH h v ps).1.length := by
  induction ps with
  | nil => intro h; exact ⟨Kept.refl _ _, Nat.le_refl _⟩
  | cons p ps ih =>
    intro h
    obtain ⟨i1, i2⟩ := ih h
    refine ⟨i1.trans ((Kept.append _ _).mono i2), ?_⟩
    simp only [branchH, List.length_append, List.length_singleton]
    omega

theorem branchH_reads {v : Val} {d : Doc} (ps : List Str) : ∀ h, Reads (whole h) v d →
    Reads (whole (branchH h v ps).1) (branchH h v ps).2 (mkBranch d ps) := by
  induction ps with
  | nil => intro h hr; exact hr
  | cons p ps ih =>
    intro h hr
    have hi := ih h hr
    simp only [branchH, mkBranch]
    refine .dict _ [(p, (branchH h v ps).2)] _ (by simp [whole]) (.cons _ _ _ _ _ ?_ .nil)
    refine reads_agree _ _ (fun m hm => ?_) hi
    exact List.getElem?_append_left (inside_lt hi hm)

/-- What a part selects in an object: nothing, or the value there. -/
theorem getItemH_ref {h : Heap} {l : Nat} {o : Obj} (ho : h[l]? = some o) {p : Str} {i : Idx} (hi : setIdxH h (.ref l) p = .ok i) :
    (∃ kvs, o = .dict kvs ∧ i = .s p ∧
      ((∃ v, dget kvs p = some v ∧ getItemH h (.ref l) i = .ok v) ∨ (dget kvs p = none ∧ getItemH h (.ref l) i = .error .lookup))) ∨
    (∃ vs n, o = .list vs ∧ i = .i n ∧ (n = vs.length ∨ pyInt p = some n) ∧
      ((∃ j v, seqIndex vs.length n = some j ∧ vs[j]? = some v ∧ getItemH h (.ref l) i = .ok v) ∨
        (seqIndex vs.length n = none ∧ getItemH h (.ref l) i = .error .lookup))) := by
  cases o with
  | dict kvs =>
    left
    have hl : asList h (.ref l) = none := by simp [asList, ho]
    have hd : asDict h (.ref l) = some kvs := by simp [asDict, ho]
    have : i = .s p := by unfold setIdxH at hi; rw [hl] at hi; injection hi with hi; exact hi.symm
    subst this
    refine ⟨kvs, rfl, rfl, ?_⟩
    unfold getItemH
    simp only [hd]
    cases hg : dget kvs p with
    | some v => exact .inl ⟨v, rfl, rfl⟩
    | none => exact .inr ⟨rfl, rfl⟩
  | list vs =>
    right
    have hl : asList h (.ref l) = some vs := by simp [asList, ho]
    have hd : asDict h (.ref l) = none := by simp [asDict, ho]
    have : ∃ n, i = .i n ∧ (n = vs.length ∨ pyInt p = some n) := by
      unfold setIdxH at hi
      rw [hl] at hi
      simp only at hi
      split at hi
      · injection hi with hi; exact ⟨_, hi.symm, .inl rfl⟩
      · split at hi
        · cases hi
        · next n hn =>
          split at hi
          · cases hi
          · injection hi with hi; exact ⟨_, hi.symm, .inr hn⟩
    obtain ⟨n, rfl, hn⟩ := this
    refine ⟨vs, n, rfl, rfl, hn, ?_⟩
    unfold getItemH
    simp only [hl, hd]
    cases hs : seqIndex vs.length n with
    | none => exact .inr ⟨rfl, rfl⟩
    | some j =>
      left
      have hj : j < vs.length := by
        unfold seqIndex at hs
        split at hs
        · split at hs
          · injection hs with hs; omega
          · cases hs
        · split at hs
          · injection hs with hs; omega
          · cases hs
      refine ⟨j, vs[j], rfl, List.getElem?_eq_getElem hj, ?_⟩
      simp [hj]

theorem seqIndex_pos {len : Nat} {n : Int} {j : Nat} (hs : seqIndex len n = some j) : (n = j ∨ n = (j : Int) - len) ∧ j < len := by
  unfold seqIndex at hs
  split at hs
  · split at hs
    · injection hs with hs; omega
    · cases hs
  · split at hs
    · injection hs with hs; omega
    · cases hs

theorem putObj_oneEntry {h : Heap} {l : Nat} {o : Obj} (ho : h[l]? = some o) {p : Str} {i : Idx} (hi : setIdxH h (.ref l) p = .ok i)
    (v : Val) : OneEntry p o (putObj o i v) := by
  rcases getItemH_ref ho hi with ⟨kvs, rfl, rfl, -⟩ | ⟨vs, n, rfl, rfl, hn, hg⟩
  · exact .entry _ _ (fun k hk => dget_dset_ne _ _ hk) (by simp)
  · unfold putObj
    simp only
    rcases hg with ⟨j, w, hs, hw, -⟩ | ⟨hs, -⟩
    · obtain ⟨h1, h2⟩ := seqIndex_pos hs
      simp only [hs]
      rcases hn with hn | hn
      · omega
      · exact .item _ n j _ hn h1 h2
    · simp only [hs]; exact .added _ _

theorem wayTo_step {h : Heap} {l : Nat} {o : Obj} (ho : h[l]? = some o) {p : Str} {i : Idx} (hi : setIdxH h (.ref l) p = .ok i)
    {v : Val} (hv : getItemH h (.ref l) i = .ok v) {ps : List Str} {m : Nat} (hw : WayTo h v ps m) : WayTo h (.ref l) (p :: ps) m := by
  rcases getItemH_ref ho hi with ⟨kvs, rfl, rfl, hg⟩ | ⟨vs, n, rfl, rfl, hn, hg⟩
  · rcases hg with ⟨w, h1, h2⟩ | ⟨_, h2⟩
    · rw [h2] at hv; injection hv with hv; subst hv
      exact .key l kvs p _ ps m ho h1 hw
    · rw [h2] at hv; cases hv
  · rcases hg with ⟨j, w, hs, hj, h2⟩ | ⟨_, h2⟩
    · rw [h2] at hv; injection hv with hv; subst hv
      obtain ⟨g1, g2⟩ := seqIndex_pos hs
      rcases hn with hn | hn
      · omega
      · exact .item l vs p n j _ ps m ho hn g1 hj hw
    · rw [h2] at hv; cases hv

/-- The loop below an object: it writes to one entry of one object, of the parent or of one on the way. -/
theorem setLoopH_one (value : Val) : ∀ (parts : List Str) (h h' : Heap) (doc : Val) (l : Nat) (i : Idx) (p0 : Str) (o : Obj),
    h[l]? = some o → setIdxH h (.ref l) p0 = .ok i → setLoopH value (some (l, i)) h doc parts = (h', none) →
    ∃ t p a b, h[t]? = some a ∧ h'[t]? = some b ∧ OneEntry p a b ∧ (∀ m, m < h.length → m ≠ t → h'[m]? = h[m]?) ∧
      ((t = l ∧ p = p0) ∨ ∃ pre post, parts = pre ++ p :: post ∧ WayTo h doc pre t) := by
  intro parts
  induction parts with
  | nil =>
    intro h h' doc l i p0 o ho hi hs
    simp only [setLoopH] at hs
    injection hs with hs _
    subst hs
    exact ⟨l, p0, o, _, ho, putH_self ho i value, putObj_oneEntry ho hi value, fun m _ hm => putH_ne hm _ _, .inl ⟨rfl, rfl⟩⟩
  | cons part parts ih =>
    intro h h' doc l i p0 o ho hi hs
    have hlt := (List.getElem?_eq_some_iff.1 ho).1
    have hgive : ∀ x, (x = ((let (h2, b) := branchH (putH (h ++ [.dict []]) l i (.ref h.length)) value parts
          (putH h2 h.length (.s part) b, none)) : Heap × Option PyErr)) → x = (h', none) →
        ∃ t p a b, h[t]? = some a ∧ h'[t]? = some b ∧ OneEntry p a b ∧ (∀ m, m < h.length → m ≠ t → h'[m]? = h[m]?) ∧
          ((t = l ∧ p = p0) ∨ ∃ pre post, part :: parts = pre ++ p :: post ∧ WayTo h doc pre t) := by
      intro x hx hx'
      rw [hx'] at hx
      injection hx with hx _
      subst hx
      have ho1 : (h ++ [.dict []])[l]? = some o := by rw [List.getElem?_append_left hlt]; exact ho
      obtain ⟨k1, k2⟩ := branchH_kept value parts (putH (h ++ [.dict []]) l i (.ref h.length))
      have hlen : (putH (h ++ [.dict []]) l i (.ref h.length)).length = h.length + 1 := by rw [putH_length]; simp
      refine ⟨l, p0, o, _, ho, ?_, putObj_oneEntry ho hi (.ref h.length), ?_, .inl ⟨rfl, rfl⟩⟩
      · rw [putH_ne (by omega), k1 l (by omega)]
        exact putH_self ho1 _ _
      · intro m hm hne
        rw [putH_ne (by omega), k1 m (by omega), putH_ne hne, List.getElem?_append_left hm]
    unfold setLoopH at hs
    split at hs
    · cases hs
    · next idx hidx =>
      split at hs
      · next l0 hg =>
        obtain ⟨k1, k2⟩ := branchH_kept value parts h
        injection hs with hs _
        subst hs
        cases ho0 : h[l0]? with
        | none => simp [getItemH, asDict, asList, ho0] at hg
        | some o0 =>
          have hlt0 := (List.getElem?_eq_some_iff.1 ho0).1
          refine ⟨l0, part, o0, _, ho0, putH_self (by rw [k1 l0 hlt0]; exact ho0) _ _, putObj_oneEntry ho0 hidx _, ?_,
            .inr ⟨[], parts, rfl, .here l0⟩⟩
          intro m hm hne
          rw [putH_ne hne, k1 m hm]
      · next ndoc l0 hg =>
        cases ho0 : h[l0]? with
        | none => simp [getItemH, asDict, asList, ho0] at hg
        | some o0 =>
          obtain ⟨t, p, a, b, g1, g2, g3, g4, g5⟩ := ih h h' ndoc l0 idx part o0 ho0 hidx hs
          refine ⟨t, p, a, b, g1, g2, g3, g4, .inr ?_⟩
          rcases g5 with ⟨rfl, rfl⟩ | ⟨pre, post, rfl, hw⟩
          · exact ⟨[], parts, rfl, .here _⟩
          · exact ⟨part :: pre, post, rfl, wayTo_step ho0 hidx hg hw⟩
      · exact hgive _ rfl hs

/-- A loop that fails has written nothing. -/
theorem setLoopH_failed (value : Val) : ∀ (parts : List Str) (h h' : Heap) (doc : Val) (parent : Option (Nat × Idx)) (e : PyErr),
    setLoopH value parent h doc parts = (h', some e) → h' = h := by
  intro parts
  induction parts with
  | nil =>
    intro h h' doc parent e hs
    unfold setLoopH at hs
    split at hs
    · injection hs with _ hs; cases hs
    · injection hs with hs _; exact hs.symm
  | cons part parts ih =>
    intro h h' doc parent e hs
    unfold setLoopH at hs
    split at hs
    · injection hs with hs _; exact hs.symm
    · split at hs
      · injection hs with _ hs; cases hs
      · exact ih _ _ _ _ _ hs
      · split at hs
        · injection hs with hs _; exact hs.symm
        · injection hs with _ hs; cases hs

/-! ### Documents -/

theorem inside_agree {h h' : Heap} {v : Val} (hk : ∀ m, Inside h v m → h'[m]? = h[m]?) {m : Nat} (hm : Inside h' v m) : Inside h v m := by
  induction hm with
  | here l e => exact .here l e
  | item l vs b _ h1 h2 ih => exact .item l vs b ih (by rw [← hk l ih]; exact h1) h2
  | entry l vs k b _ h1 h2 ih => exact .entry l vs k b ih (by rw [← hk l ih]; exact h1) h2

theorem inside_one {h : Heap} {l : Nat} {p : Str} {b : Val} (hl : h[l]? = some (.dict [(p, b)])) {m : Nat} (hm : Inside h (.ref l) m) :
    m = l ∨ Inside h b m := by
  induction hm with
  | here m e => injection e with e; exact .inl e.symm
  | item a vs c _ h1 h2 ih =>
    rcases ih with rfl | ih
    · rw [hl] at h1; injection h1 with h1; cases h1
    · exact .inr (.item a vs c ih h1 h2)
  | entry a vs k c _ h1 h2 ih =>
    rcases ih with rfl | ih
    · rw [hl] at h1; injection h1 with h1; injection h1 with h1; subst h1
      simp only [List.mem_singleton, Prod.mk.injEq] at h2
      exact .inr (.here c h2.2.symm)
    · exact .inr (.entry a vs k c ih h1 h2)

theorem branchH_inside {v : Val} {d : Doc} (ps : List Str) : ∀ (h : Heap) (m : Nat), Reads (whole h) v d →
    Inside (branchH h v ps).1 (branchH h v ps).2 m → Inside h v m ∨ h.length ≤ m := by
  induction ps with
  | nil => intro h m _ hm; exact .inl hm
  | cons p ps ih =>
    intro h m hr hm
    have hb := branchH_reads ps h hr
    simp only [branchH] at hm
    rcases inside_one (p := p) (b := (branchH h v ps).2) (by simp) hm with e | hm
    · right
      have := (branchH_kept v ps h).2
      omega
    · refine ih h m hr (inside_agree (fun m' hm' => ?_) hm)
      exact List.getElem?_append_left (inside_lt hb hm')

theorem dset_same {kvs : List (Str × Val)} {k : Str} {v : Val} (hv : dget kvs k = some v) : dset kvs k v = kvs := by
  induction kvs with
  | nil => cases hv
  | cons kv t ih =>
    obtain ⟨k', v'⟩ := kv
    unfold dget at hv
    unfold dset
    split at hv
    · next e => injection hv with hv; rw [if_pos e, hv]
    · next e => rw [if_neg e, ih hv]

theorem putObj_same {h : Heap} {l : Nat} {o : Obj} (ho : h[l]? = some o) {i : Idx} {v : Val} (hv : getItemH h (.ref l) i = .ok v) :
    putObj o i v = o := by
  cases o with
  | dict kvs =>
    have hd : asDict h (.ref l) = some kvs := by simp [asDict, ho]
    unfold getItemH at hv
    simp only [hd] at hv
    cases i with
    | s k =>
      simp only at hv
      split at hv
      · next w hw => injection hv with hv; subst hv; simp only [putObj, dset_same hw]
      · cases hv
    | i n => cases hv
  | list vs =>
    have hl : asList h (.ref l) = some vs := by simp [asList, ho]
    have hd : asDict h (.ref l) = none := by simp [asDict, ho]
    unfold getItemH at hv
    simp only [hd, hl] at hv
    cases i with
    | s k => cases hv
    | i n =>
      simp only at hv
      split at hv
      · next w hw =>
        injection hv with hv; subst hv
        simp only [Option.bind_eq_some_iff] at hw
        obtain ⟨j, h1, h2⟩ := hw
        simp only [putObj, h1]
        congr 1
        obtain ⟨hj, h2⟩ := List.getElem?_eq_some_iff.1 h2
        rw [← h2, List.set_getElem_self]
      · cases hv

theorem readsList_length {g : View} {ds : List Doc} : ∀ {vs}, ReadsList g vs ds → vs.length = ds.length := by
  induction ds with
  | nil => intro vs h; cases h; rfl
  | cons d t ih => intro vs h; cases h with | cons _ _ vs' _ _ h2 => simp [ih h2]

theorem readsList_get {g : View} {ds : List Doc} : ∀ {vs}, ReadsList g vs ds → ∀ {j : Nat} {v}, vs[j]? = some v → ∃ d, ds[j]? = some d ∧ Reads g v d := by
  induction ds with
  | nil => intro vs h j v hv; cases h; simp at hv
  | cons d t ih =>
    intro vs h j v hv
    cases h with
    | cons w _ vs' _ h1 h2 =>
      cases j with
      | zero => simp only [List.getElem?_cons_zero, Option.some.injEq] at hv; subst hv; exact ⟨d, rfl, h1⟩
      | succ j => simp only [List.getElem?_cons_succ] at hv ⊢; exact ih h2 hv

theorem readsList_append {g : View} {ds : List Doc} {v : Val} {d : Doc} (hv : Reads g v d) :
    ∀ {vs}, ReadsList g vs ds → ReadsList g (vs ++ [v]) (ds ++ [d]) := by
  induction ds with
  | nil => intro vs h; cases h; exact .cons _ _ _ _ hv .nil
  | cons d t ih => intro vs h; cases h with | cons w _ vs' _ h1 h2 => exact .cons _ _ _ _ h1 (ih h2)

theorem readsItems_put {h h' : Heap} {l0 : Nat} {k : Str} {ndoc nv : Val} {nd : Doc} (hn : Reads (whole h') nv nd)
    (ht : ∀ v d, Apart h ndoc v → ¬ Inside h v l0 → Reads (whole h) v d → Reads (whole h') v d) {ds : List (Str × Doc)} :
    ∀ {kvs}, dget kvs k = some ndoc → (∀ kv ∈ kvs, ¬ Inside h kv.2 l0) → kvs.Pairwise (fun a b => Apart h a.2 b.2) →
      ReadsItems (whole h) kvs ds → ReadsItems (whole h') (dset kvs k nv) (dset ds k nd) := by
  have tail : ∀ {ds : List (Str × Doc)} {kvs}, (∀ kv ∈ kvs, ¬ Inside h kv.2 l0) → (∀ kv ∈ kvs, Apart h ndoc kv.2) →
      ReadsItems (whole h) kvs ds → ReadsItems (whole h') kvs ds := by
    intro ds
    induction ds with
    | nil => intro kvs _ _ hr; cases hr; exact .nil
    | cons d t ih =>
      intro kvs h1 h2 hr
      cases hr with
      | cons k' v d' vs' _ r1 r2 =>
        exact .cons _ _ _ _ _ (ht v _ (h2 (k', v) (by simp)) (h1 (k', v) (by simp)) r1)
          (ih (fun kv hkv => h1 kv (by simp [hkv])) (fun kv hkv => h2 kv (by simp [hkv])) r2)
  induction ds with
  | nil => intro kvs hg _ _ hr; cases hr; cases hg
  | cons d t ih =>
    intro kvs hg h1 hp hr
    cases hr with
    | cons k' v d' vs' _ r1 r2 =>
      have hp' := List.pairwise_cons.1 hp
      unfold dget at hg
      unfold dset
      by_cases e : k' = k
      · rw [if_pos e] at hg
        injection hg with hg
        subst hg
        rw [if_pos e, if_pos e]
        exact .cons _ _ _ _ _ hn (tail (fun kv hkv => h1 kv (by simp [hkv])) (fun kv hkv => hp'.1 kv hkv) r2)
      · rw [if_neg e] at hg
        rw [if_neg e, if_neg e]
        refine .cons _ _ _ _ _ (ht v _ ?_ (h1 (k', v) (by simp)) r1) (ih hg (fun kv hkv => h1 kv (by simp [hkv])) hp'.2 r2)
        obtain ⟨before, after, e1, -⟩ := (dget_eq_some_iff _ _ _).1 hg
        have := hp'.1 (k, ndoc) (by rw [e1]; simp)
        exact fun m hm hm' => this m hm' hm

theorem readsList_put {h h' : Heap} {l0 : Nat} {ndoc nv : Val} {nd : Doc} (hn : Reads (whole h') nv nd)
    (ht : ∀ v d, Apart h ndoc v → ¬ Inside h v l0 → Reads (whole h) v d → Reads (whole h') v d) {ds : List Doc} :
    ∀ {vs} {j : Nat}, vs[j]? = some ndoc → (∀ v ∈ vs, ¬ Inside h v l0) → vs.Pairwise (Apart h) →
      ReadsList (whole h) vs ds → ReadsList (whole h') (vs.set j nv) (ds.set j nd) := by
  have tail : ∀ {ds : List Doc} {vs}, (∀ v ∈ vs, ¬ Inside h v l0) → (∀ v ∈ vs, Apart h ndoc v) →
      ReadsList (whole h) vs ds → ReadsList (whole h') vs ds := by
    intro ds
    induction ds with
    | nil => intro vs _ _ hr; cases hr; exact .nil
    | cons d t ih =>
      intro vs h1 h2 hr
      cases hr with
      | cons v _ vs' _ r1 r2 =>
        exact .cons _ _ _ _ (ht v _ (h2 v (by simp)) (h1 v (by simp)) r1)
          (ih (fun kv hkv => h1 kv (by simp [hkv])) (fun kv hkv => h2 kv (by simp [hkv])) r2)
  induction ds with
  | nil => intro vs j hg _ _ hr; cases hr; simp at hg
  | cons d t ih =>
    intro vs j hg h1 hp hr
    cases hr with
    | cons v _ vs' _ r1 r2 =>
      have hp' := List.pairwise_cons.1 hp
      cases j with
      | zero =>
        simp only [List.getElem?_cons_zero, Option.some.injEq] at hg
        subst hg
        exact .cons _ _ _ _ hn (tail (fun kv hkv => h1 kv (by simp [hkv])) (fun kv hkv => hp'.1 kv hkv) r2)
      | succ j =>
        simp only [List.getElem?_cons_succ] at hg
        refine .cons _ _ _ _ (ht v _ ?_ (h1 v (by simp)) r1) (ih hg (fun kv hkv => h1 kv (by simp [hkv])) hp'.2 r2)
        have := hp'.1 ndoc (List.mem_of_getElem? hg)
        exact fun m hm hm' => this m hm' hm

theorem scalar_reads {g : View} {v : Val} {d : Doc} (hr : Reads g v d) (hv : ∀ l, v ≠ .ref l) :
    (∀ p, setIdx d p = .ok (.s p)) ∧ ∀ k, d.getItem (.s k) = .error .type := by
  cases hr with
  | list l => exact absurd rfl (hv l)
  | dict l => exact absurd rfl (hv l)
  | _ => exact ⟨fun _ => rfl, fun _ => rfl⟩

theorem scalar_step {h : Heap} {v : Val} (hv : ∀ l, v ≠ .ref l) (p : Str) :
    setIdxH h v p = .ok (.s p) ∧ getItemH h v (.s p) = .error .type := by
  cases v with
  | ref l => exact absurd rfl (hv l)
  | _ => exact ⟨rfl, rfl⟩

/-- The loop below an object does to the document what it does to a document without sharing. -/
def LoopAgrees (value : Val) (dv : Doc) (parts : List Str) : Prop :=
  ∀ (h : Heap) (doc : Val) (d : Doc) (l : Nat) (i : Idx) (o : Obj), Reads (whole h) doc d → Reads (whole h) value dv →
    Unshared h doc → Apart h value doc → ¬ Inside h doc l → ¬ Inside h value l → h[l]? = some o → getItemH h (.ref l) i = .ok doc →
    match setParts false dv d parts with
    | .error e => setLoopH value (some (l, i)) h doc parts = (h, some e)
    | .ok d' => ∃ h' nv, setLoopH value (some (l, i)) h doc parts = (h', none) ∧ Reads (whole h') nv d' ∧
        h'[l]? = some (putObj o i nv) ∧ ∀ m, m < h.length → m ≠ l → ¬ Inside h doc m → h'[m]? = h[m]?

theorem ref_step {value : Val} {dv : Doc} {parts : List Str} (ih : LoopAgrees value dv parts) (h : Heap) (l0 : Nat) (d : Doc)
    (part : Str) (parent : Option (Nat × Idx)) (r : Bool) (hr : Reads (whole h) (.ref l0) d) (hv : Reads (whole h) value dv)
    (hu : Unshared h (.ref l0)) (ha : Apart h value (.ref l0)) :
    match setParts r dv d (part :: parts) with
    | .error e => setLoopH value parent h (.ref l0) (part :: parts) = (h, some e)
    | .ok d' => ∃ h', setLoopH value parent h (.ref l0) (part :: parts) = (h', none) ∧ Reads (whole h') (.ref l0) d' ∧
        ∀ m, m < h.length → ¬ Inside h (.ref l0) m → h'[m]? = h[m]? := by
  have hv0 : ¬ Inside h value l0 := fun hm => ha l0 hm (.here l0 rfl)
  -- the branch that is added
  obtain ⟨k1, k2⟩ := branchH_kept value parts h
  have hb := branchH_reads parts h hv
  have added : ∀ idx, ∀ o, h[l0]? = some o → Reads (whole (putH (branchH h value parts).1 l0 idx (branchH h value parts).2))
      (branchH h value parts).2 (mkBranch dv parts) := by
    intro idx o ho
    refine reads_agree _ _ (fun m hm => putH_ne ?_ _ _) hb
    rintro rfl
    rcases branchH_inside parts h _ hv hm with hm | hm
    · exact hv0 hm
    · have := (List.getElem?_eq_some_iff.1 ho).1
      omega
  have kept : ∀ idx (w : Val) (e : Doc), ¬ Inside h w l0 → Reads (whole h) w e →
      Reads (whole (putH (branchH h value parts).1 l0 idx (branchH h value parts).2)) w e := by
    intro idx w e hw he
    refine reads_agree _ _ (fun m hm => ?_) he
    rw [putH_ne (by rintro rfl; exact hw hm), k1 m (inside_lt he hm)]
  have frame : ∀ idx m, m < h.length → ¬ Inside h (.ref l0) m →
      (putH (branchH h value parts).1 l0 idx (branchH h value parts).2)[m]? = h[m]? := by
    intro idx m hm hn
    rw [putH_ne (fun e => hn (.here m (by rw [e]))), k1 m hm]
  cases hr with
  | dict _ kvs ds g1 g2 =>
    have g1' : h[l0]? = some (.dict kvs) := g1
    have hlt := (List.getElem?_eq_some_iff.1 g1').1
    have hidx : setIdxH h (.ref l0) part = .ok (.s part) := by simp [setIdxH, asList, g1']
    have hgi : ∀ v, dget kvs part = some v → getItemH h (.ref l0) (.s part) = .ok v := by
      intro v hv; simp [getItemH, asDict, g1', hv]
    have hgn : dget kvs part = none → getItemH h (.ref l0) (.s part) = .error .lookup := by
      intro hv; simp [getItemH, asDict, g1', hv]
    cases hu with
    | scalar _ hx => exact absurd rfl (hx l0)
    | list _ vs' e1 => rw [g1'] at e1; injection e1 with e1; cases e1
    | dict _ kvs' e1 u1 u2 u3 =>
      rw [g1'] at e1; injection e1 with e1; injection e1 with e1; subst e1
      rcases readsItems_get part g2 with ⟨e1, e2⟩ | ⟨v, nd, e1, e2, e3⟩
      · simp only [setParts, setIdx, Doc.getItem, setLoopH, hidx, hgn e1, e2]
        refine ⟨_, rfl, ?_, frame _⟩
        have h1 : (branchH h value parts).1[l0]? = some (.dict kvs) := by rw [k1 l0 hlt]; exact g1'
        refine .dict _ _ _ (putH_self h1 _ _) (readsItems_set part (added _ _ g1') ?_)
        exact readsItems_agree (fun kd _ v hm he => reads_agree kd.2 v hm he) _
          (fun kv hkv m hm => by
            rw [putH_ne (by rintro rfl; exact u2 kv hkv hm)]
            obtain ⟨e, he⟩ := readsItems_mem g2 (k := kv.1) (v := kv.2) hkv
            exact k1 m (inside_lt he hm)) g2
      · simp only [setParts, setIdx, Doc.getItem, setLoopH, hidx, hgi v e1, e2]
        obtain ⟨bf, af, e4, -⟩ := (dget_eq_some_iff _ _ _).1 e1
        have hmem : (part, v) ∈ kvs := by rw [e4]; simp
        have hih := ih h v nd l0 (.s part) (.dict kvs) e3 hv (u1 _ hmem)
          (fun m h1 h2 => ha m h1 (inside_entry g1' hmem h2)) (u2 _ hmem) hv0 g1' (hgi v e1)
        cases hsp : setParts false dv nd parts with
        | error e => rw [hsp] at hih; exact hih
        | ok nd' =>
          rw [hsp] at hih
          obtain ⟨h', nv, i1, i2, i3, i4⟩ := hih
          refine ⟨h', i1, ?_, ?_⟩
          · refine .dict _ _ _ i3 (readsItems_put (l0 := l0) i2 ?_ e1 u2 u3 g2)
            intro w e hw1 hw2 he
            exact reads_agree _ _ (fun m hm => i4 m (inside_lt he hm) (by rintro rfl; exact hw2 hm) (fun hn => hw1 m hn hm)) he
          · intro m hm hn
            exact i4 m hm (fun e => hn (.here m (by rw [e]))) (fun hi => hn (inside_entry g1' hmem hi))
  | list _ vs ds g1 g2 =>
    have g1' : h[l0]? = some (.list vs) := g1
    have hlt := (List.getElem?_eq_some_iff.1 g1').1
    have hlen := readsList_length g2
    have hidx : setIdxH h (.ref l0) part = setIdx (.list ds) part := by
      have hal : asList h (.ref l0) = some vs := by simp [asList, g1']
      unfold setIdxH setIdx
      simp only [hal, hlen]
      cases pyInt part <;> rfl
    cases hu with
    | scalar _ hx => exact absurd rfl (hx l0)
    | dict _ vs' e1 => rw [g1'] at e1; injection e1 with e1; cases e1
    | list _ vs' e1 u1 u2 u3 =>
      rw [g1'] at e1; injection e1 with e1; injection e1 with e1; subst e1
      cases hsi : setIdx (.list ds) part with
      | error e => simp only [setParts, hsi, setLoopH, hidx]
      | ok idx =>
        rw [hsi] at hidx
        rcases getItemH_ref g1' hidx with ⟨kvs, ho, -⟩ | ⟨ws, n, ho, rfl, hn, hg⟩
        · cases ho
        · injection ho with ho
          subst ho
          have hgd : ∀ j nd, seqIndex vs.length n = some j → ds[j]? = some nd → (Doc.list ds).getItem (.i n) = .ok nd := by
            intro j nd e1 e2; simp [Doc.getItem, ← hlen, e1, e2]
          have hgn : seqIndex vs.length n = none → (Doc.list ds).getItem (.i n) = .error .lookup := by
            intro e1; simp [Doc.getItem, ← hlen, e1]
          rcases hg with ⟨j, v, e1, e2, e3⟩ | ⟨e1, e3⟩
          · obtain ⟨nd, e4, e5⟩ := readsList_get g2 e2
            simp only [setParts, hsi, setLoopH, hidx, e3, hgd j nd e1 e4]
            have hmem : v ∈ vs := List.mem_of_getElem? e2
            have hih := ih h v nd l0 (.i n) (.list vs) e5 hv (u1 _ hmem)
              (fun m h1 h2 => ha m h1 (inside_item g1' hmem h2)) (u2 _ hmem) hv0 g1' e3
            cases hsp : setParts false dv nd parts with
            | error e => rw [hsp] at hih; exact hih
            | ok nd' =>
              rw [hsp] at hih
              obtain ⟨h', nv, i1, i2, i3, i4⟩ := hih
              refine ⟨h', i1, ?_, ?_⟩
              · have i3' : h'[l0]? = some (.list (vs.set j nv)) := by rw [i3]; simp only [putObj, e1]
                have ea : attach (.list ds) (.i n) nd' = .list (ds.set j nd') := by simp only [attach, ← hlen, e1]
                rw [ea]
                refine .list _ _ _ i3' (readsList_put (l0 := l0) i2 ?_ e2 u2 u3 g2)
                intro w e hw1 hw2 he
                exact reads_agree _ _ (fun m hm => i4 m (inside_lt he hm) (by rintro rfl; exact hw2 hm) (fun hn => hw1 m hn hm)) he
              · intro m hm hn
                exact i4 m hm (fun e => hn (.here m (by rw [e]))) (fun hi => hn (inside_item g1' hmem hi))
          · simp only [setParts, hsi, setLoopH, hidx, e3, hgn e1]
            refine ⟨_, rfl, ?_, frame _⟩
            have h1 : (branchH h value parts).1[l0]? = some (.list vs) := by rw [k1 l0 hlt]; exact g1'
            have ea : attach (.list ds) (.i n) (mkBranch dv parts) = .list (ds ++ [mkBranch dv parts]) := by
              simp only [attach, ← hlen, e1]
            rw [ea]
            refine .list _ (vs ++ [(branchH h value parts).2]) _ ?_ (readsList_append (added _ _ g1') ?_)
            · show (putH _ _ _ _)[l0]? = _
              rw [putH_self h1]
              simp only [putObj, e1]
            · exact readsList_agree (fun d _ v hm he => reads_agree d v hm he) _
                (fun w hw m hm => by
                  rw [putH_ne (by rintro rfl; exact u2 w hw hm)]
                  obtain ⟨e, he⟩ := readsList_mem g2 hw
                  exact k1 m (inside_lt he hm)) g2

theorem loop_agrees {value : Val} {dv : Doc} (parts : List Str) : LoopAgrees value dv parts := by
  induction parts with
  | nil =>
    intro h doc d l i o _ hv _ _ _ hvl ho _
    simp only [setParts, setLoopH]
    refine ⟨_, value, rfl, ?_, putH_self ho _ _, fun m _ hm _ => putH_ne hm _ _⟩
    exact reads_agree _ _ (fun m hm => putH_ne (by rintro rfl; exact hvl hm) _ _) hv
  | cons part parts ih =>
    intro h doc d l i o hr hv hu ha hdl hvl ho hg
    by_cases hs : ∀ l, doc ≠ .ref l
    · obtain ⟨s1, s2⟩ := scalar_reads hr hs
      obtain ⟨t1, t2⟩ := scalar_step (h := h) hs part
      simp only [setParts, s1, s2, setLoopH, t1, t2]
      have hlt := (List.getElem?_eq_some_iff.1 ho).1
      generalize hX : putH (h ++ [.dict []]) l i (.ref h.length) = X
      have hXlen : X.length = h.length + 1 := by rw [← hX, putH_length]; simp
      have hXm : ∀ m, m < h.length → m ≠ l → X[m]? = h[m]? := by
        intro m hm hne
        rw [← hX, putH_ne hne, List.getElem?_append_left hm]
      have hXv : Reads (whole X) value dv :=
        reads_agree _ _ (fun m hm => hXm m (inside_lt hv hm) (by rintro rfl; exact hvl hm)) hv
      have hXl : X[l]? = some (putObj o i (.ref h.length)) := by
        rw [← hX]; exact putH_self (by rw [List.getElem?_append_left hlt]; exact ho) _ _
      have hXn : X[h.length]? = some (.dict []) := by
        rw [← hX, putH_ne (by omega)]; simp
      obtain ⟨k1, k2⟩ := branchH_kept value parts X
      have hb := branchH_reads parts X hXv
      refine ⟨_, .ref h.length, rfl, ?_, ?_, ?_⟩
      · have e1 : (branchH X value parts).1[h.length]? = some (.dict []) := by rw [k1 _ (by omega)]; exact hXn
        refine .dict _ [(part, (branchH X value parts).2)] _ ?_ (.cons _ _ _ _ _ ?_ .nil)
        · show (putH _ _ _ _)[h.length]? = _
          rw [putH_self e1]; rfl
        · refine reads_agree _ _ (fun m hm => putH_ne ?_ _ _) hb
          rintro rfl
          rcases branchH_inside parts X _ hXv hm with hm | hm
          · have := inside_agree (fun m' hm' => hXm m' (inside_lt hv hm') (by rintro rfl; exact hvl hm')) hm
            exact absurd (inside_lt hv this) (Nat.lt_irrefl _)
          · omega
      · rw [putH_ne (by omega), k1 _ (by omega)]
        exact hXl
      · intro m hm hne _
        rw [putH_ne (by omega), k1 m (by omega), hXm m hm hne]
    · have : ∃ l0, doc = .ref l0 := Classical.byContradiction fun hn => hs fun l e => hn ⟨l, e⟩
      obtain ⟨l0, rfl⟩ := this
      have hst := ref_step ih h l0 d part (some (l, i)) false hr hv hu ha
      cases hsp : setParts false dv d (part :: parts) with
      | error e => rw [hsp] at hst; exact hst
      | ok d' =>
        rw [hsp] at hst
        obtain ⟨h', i1, i2, i3⟩ := hst
        refine ⟨h', .ref l0, i1, i2, ?_, fun m hm _ hn => i3 m hm hn⟩
        rw [i3 l (List.getElem?_eq_some_iff.1 ho).1 hdl, ho, putObj_same ho hg]

end Lemmas
