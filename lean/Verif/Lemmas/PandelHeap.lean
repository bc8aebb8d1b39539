import Verif.Spec.PandelHeap
import Verif.Lemmas.Pandel
/-
Facts about merging on the heap.
-/
set_option linter.unusedSimpArgs false
namespace Model
open Py Spec

/-! ### What is kept -/

theorem _root_.Spec.Kept.refl (n : Nat) (h : Heap) : Kept n h h := fun _ _ => rfl

theorem _root_.Spec.Kept.trans {n : Nat} {h1 h2 h3 : Heap} (a : Kept n h1 h2) (b : Kept n h2 h3) : Kept n h1 h3 :=
  fun l hl => (b l hl).trans (a l hl)

theorem _root_.Spec.Kept.mono {n m : Nat} {h1 h2 : Heap} (a : Kept n h1 h2) (hm : m ≤ n) : Kept m h1 h2 :=
  fun l hl => a l (Nat.lt_of_lt_of_le hl hm)

theorem _root_.Spec.Kept.append (h : Heap) (os : List Obj) : Kept h.length h (h ++ os) :=
  fun _ hl => List.getElem?_append_left hl

theorem _root_.Spec.Kept.setKey {n la : Nat} (hn : n ≤ la) (h : Heap) (k : Str) (v : Val) : Kept n h (setKey h la k v) := by
  intro l hl
  unfold Model.setKey
  rw [List.getElem?_set_ne (by omega)]

theorem setKey_length (h : Heap) (la : Nat) (k : Str) (v : Val) : (setKey h la k v).length = h.length := by
  simp [setKey]

/-- A function that keeps what is there and only adds. -/
def Adds (f : Heap → Val → Val → Heap × Except PyErr Val) : Prop :=
  ∀ h a b, Kept h.length h (f h a b).1 ∧ h.length ≤ (f h a b).1.length

theorem mergeKeysH_kept {f : Heap → Val → Val → Heap × Except PyErr Val} (hf : Adds f) (n la : Nat) (hla : n ≤ la) :
    ∀ (bs : List (Str × Val)) (h : Heap), n ≤ h.length →
      Kept n h (mergeKeysH f la h bs).1 ∧ h.length ≤ (mergeKeysH f la h bs).1.length := by
  intro bs
  induction bs with
  | nil => intro h _; exact ⟨Kept.refl _ _, Nat.le_refl _⟩
  | cons kb t ih =>
    obtain ⟨k, bv⟩ := kb
    intro h hn
    unfold mergeKeysH
    cases hd : dget (itemsAt h la) k with
    | none =>
      simp only
      obtain ⟨i1, i2⟩ := ih (setKey h la k bv) (by rw [setKey_length]; exact hn)
      rw [setKey_length] at i2
      exact ⟨(Kept.setKey hla h k bv).trans i1, i2⟩
    | some av =>
      simp only
      obtain ⟨f1, f2⟩ := hf h av bv
      split
      · rename_i h1 e he
        rw [he] at f1 f2
        exact ⟨f1.mono hn, f2⟩
      · rename_i h1 v he
        rw [he] at f1 f2
        simp only at f1 f2
        obtain ⟨i1, i2⟩ := ih (setKey h1 la k v) (by rw [setKey_length]; omega)
        rw [setKey_length] at i2
        exact ⟨((f1.mono hn).trans (Kept.setKey hla h1 k v)).trans i1, by omega⟩

theorem mergeListH_kept {f : Heap → Val → Val → Heap × Except PyErr Val} (hf : Adds f) :
    ∀ (vs : List Val) (h : Heap), Kept h.length h (mergeListH f h vs).1 ∧ h.length ≤ (mergeListH f h vs).1.length := by
  intro vs
  induction vs with
  | nil => intro h; exact ⟨Kept.refl _ _, Nat.le_refl _⟩
  | cons x t ih =>
    intro h
    unfold mergeListH
    obtain ⟨f1, f2⟩ := hf h x .null
    split
    · rename_i h1 e he
      rw [he] at f1 f2
      exact ⟨f1, f2⟩
    · rename_i h1 v he
      rw [he] at f1 f2
      simp only at f1 f2
      obtain ⟨i1, i2⟩ := ih h1
      split
      · rename_i h2 e he2
        rw [he2] at i1 i2
        exact ⟨f1.trans (i1.mono f2), by simp only at i2 ⊢; omega⟩
      · rename_i h2 e he2
        rw [he2] at i1 i2
        exact ⟨f1.trans (i1.mono f2), by simp only at i2 ⊢; omega⟩

theorem mergeH_adds : ∀ n, Adds (mergeH n) := by
  intro n
  induction n with
  | zero => intro h a b; exact ⟨Kept.refl _ _, Nat.le_refl _⟩
  | succ n ih =>
    intro h a b
    unfold mergeH
    split
    · split
      · exact ⟨Kept.refl _ _, Nat.le_refl _⟩
      · rename_i as _
        split
        · exact ⟨Kept.append h _, by simp⟩
        · rename_i bs _
          obtain ⟨k1, k2⟩ := mergeKeysH_kept ih h.length h.length (Nat.le_refl _) bs (h ++ [.dict as]) (by simp)
          split
          · rename_i h1 e he
            rw [he] at k1 k2
            exact ⟨(Kept.append h _).trans k1, by simp at k2 ⊢; omega⟩
          · rename_i h1 he
            rw [he] at k1 k2
            exact ⟨(Kept.append h _).trans k1, by simp at k2 ⊢; omega⟩
    · split
      · split
        · exact ⟨Kept.refl _ _, Nat.le_refl _⟩
        · rename_i vs _
          obtain ⟨k1, k2⟩ := mergeListH_kept ih vs h
          split
          · rename_i h1 e he
            rw [he] at k1 k2
            exact ⟨k1, k2⟩
          · rename_i h1 ws he
            rw [he] at k1 k2
            simp only at k1 k2
            exact ⟨k1.trans ((Kept.append h1 _).mono k2), by simp; omega⟩
      · split
        · exact ⟨Kept.refl _ _, Nat.le_refl _⟩
        · exact ⟨Kept.refl _ _, Nat.le_refl _⟩

/-! ### Reading -/

/-- One view shows all that another one does. -/
def Shows (g g' : View) : Prop := ∀ l o, g l = some o → g' l = some o

theorem readsList_mono {g g' : View} {ds : List Doc} (ih : ∀ d ∈ ds, ∀ v, Reads g v d → Reads g' v d) :
    ∀ vs, ReadsList g vs ds → ReadsList g' vs ds := by
  induction ds with
  | nil => intro vs h; cases h; exact .nil
  | cons d t iht =>
    intro vs h
    cases h with
    | cons v _ vs _ h1 h2 =>
      exact .cons _ _ _ _ (ih d (by simp) v h1) (iht (fun x hx => ih x (by simp [hx])) vs h2)

theorem readsItems_mono {g g' : View} {ds : List (Str × Doc)} (ih : ∀ kd ∈ ds, ∀ v, Reads g v kd.2 → Reads g' v kd.2) :
    ∀ vs, ReadsItems g vs ds → ReadsItems g' vs ds := by
  induction ds with
  | nil => intro vs h; cases h; exact .nil
  | cons d t iht =>
    intro vs h
    cases h with
    | cons k v d vs _ h1 h2 =>
      exact .cons _ _ _ _ _ (ih (k, d) (by simp) v h1) (iht (fun x hx => ih x (by simp [hx])) vs h2)

theorem _root_.Spec.Reads.mono {g g' : View} (hg : Shows g g') (d : Doc) : ∀ v, Reads g v d → Reads g' v d := by
  induction d using Doc.ind with
  | h0 => intro v h; cases h; exact .null
  | h1 b => intro v h; cases h; exact .bool _
  | h2 b => intro v h; cases h; exact .int _
  | h3 b => intro v h; cases h; exact .atom _
  | h4 b => intro v h; cases h; exact .str _
  | h5 xs ih =>
    intro v h
    cases h with
    | list l vs _ h1 h2 => exact .list l vs _ (hg _ _ h1) (readsList_mono ih vs h2)
  | h6 kvs ih =>
    intro v h
    cases h with
    | dict l vs _ h1 h2 => exact .dict l vs _ (hg _ _ h1) (readsItems_mono ih vs h2)

theorem _root_.Spec.ReadsItems.mono {g g' : View} (hg : Shows g g') {vs : List (Str × Val)} {ds : List (Str × Doc)}
    (h : ReadsItems g vs ds) : ReadsItems g' vs ds :=
  readsItems_mono (fun kd _ v => Reads.mono hg kd.2 v) vs h

theorem _root_.Spec.ReadsList.mono {g g' : View} (hg : Shows g g') {vs : List Val} {ds : List Doc}
    (h : ReadsList g vs ds) : ReadsList g' vs ds :=
  readsList_mono (fun d _ v => Reads.mono hg d v) vs h

theorem readsItems_get {g : View} {ds : List (Str × Doc)} (k : Str) : ∀ {vs}, ReadsItems g vs ds →
    (dget vs k = none ∧ dget ds k = none) ∨ ∃ v d, dget vs k = some v ∧ dget ds k = some d ∧ Reads g v d := by
  induction ds with
  | nil => intro vs h; cases h; left; simp
  | cons kd t ih =>
    intro vs h
    cases h with
    | cons k' v d vs _ h1 h2 =>
      rw [dget_cons, dget_cons]
      by_cases hk : k' = k
      · simp only [hk, if_true]; exact .inr ⟨v, d, rfl, rfl, h1⟩
      · simp only [hk, if_false]; exact ih h2

theorem readsItems_set {g : View} {ds : List (Str × Doc)} (k : Str) {v : Val} {d : Doc} (hv : Reads g v d) :
    ∀ {vs}, ReadsItems g vs ds → ReadsItems g (dset vs k v) (dset ds k d) := by
  induction ds with
  | nil => intro vs h; cases h; exact .cons _ _ _ _ _ hv .nil
  | cons kd t ih =>
    intro vs h
    cases h with
    | cons k' v' d' vs _ h1 h2 =>
      unfold dset
      by_cases hk : k' = k
      · simp only [hk, if_true]; exact .cons _ _ _ _ _ hv h2
      · simp only [hk, if_false]; exact .cons _ _ _ _ _ h1 (ih h2)

/-- The heap without some objects. -/
def view (hid : Nat → Bool) (h : Heap) : View := fun l => if hid l then none else h[l]?

theorem view_shows_kept {hid : Nat → Bool} {h h' : Heap} (hk : Kept h.length h h') : Shows (view hid h) (view hid h') := by
  intro l o hl
  unfold view at *
  split at hl
  · cases hl
  · rename_i hh
    rw [if_neg hh, hk l ?_]
    · exact hl
    · rw [← List.getElem?_eq_some_iff.1 hl |>.2] at hl
      exact (List.getElem?_eq_some_iff.1 hl).1

theorem view_setKey {hid : Nat → Bool} {la : Nat} (hla : hid la = true) (h : Heap) (k : Str) (v : Val) :
    view hid (setKey h la k v) = view hid h := by
  funext l
  unfold view
  by_cases hl : l = la
  · subst hl; simp [hla]
  · unfold setKey
    rw [List.getElem?_set_ne (Ne.symm hl)]

/-! ### Depth -/

theorem _root_.Spec.DepthLe.mono {d : Doc} : ∀ {n m}, DepthLe n d → n ≤ m → DepthLe m d := by
  induction d using Doc.ind with
  | h0 => intros; exact .null _
  | h1 b => intros; exact .bool _ _
  | h2 b => intros; exact .int _ _
  | h3 b => intros; exact .atom _ _
  | h4 b => intros; exact .str _ _
  | h5 xs ih =>
    intro n m h hm
    cases h with
    | list n _ h =>
      obtain ⟨m', rfl⟩ : ∃ m', m = m' + 1 := ⟨m - 1, by omega⟩
      exact .list _ _ (fun d hd => ih d hd (h d hd) (by omega))
  | h6 kvs ih =>
    intro n m h hm
    cases h with
    | dict n _ h =>
      obtain ⟨m', rfl⟩ : ∃ m', m = m' + 1 := ⟨m - 1, by omega⟩
      exact .dict _ _ (fun d hd => ih d hd (h d hd) (by omega))

theorem dset_depth {n : Nat} {as : List (Str × Doc)} (k : Str) (ha : ∀ kd ∈ as, DepthLe n kd.2) (v : Doc)
    (hv : DepthLe n v) : ∀ kd ∈ dset as k v, DepthLe n kd.2 := by
  induction as with
  | nil => intro kd hkd; simp [dset] at hkd; subst hkd; exact hv
  | cons a as' iha =>
    obtain ⟨k', v'⟩ := a
    intro kd hkd
    unfold dset at hkd
    split at hkd
    · rcases List.mem_cons.1 hkd with rfl | h
      · exact hv
      · exact ha _ (by simp [h])
    · rcases List.mem_cons.1 hkd with rfl | h
      · exact ha (k', v') (by simp)
      · exact iha (fun kd h => ha kd (by simp [h])) kd h

theorem mergeItems_depth {n : Nat} (ih : ∀ a b c, DepthLe n a → DepthLe n b → mergeDoc a b = .ok c → DepthLe n c) :
    ∀ (bs as cs : List (Str × Doc)), (∀ kd ∈ as, DepthLe n kd.2) → (∀ kd ∈ bs, DepthLe n kd.2) →
      mergeItems as bs = .ok cs → ∀ kd ∈ cs, DepthLe n kd.2 := by
  intro bs
  induction bs with
  | nil => intro as cs ha _ h; simp [mergeItems] at h; subst h; exact ha
  | cons kb t iht =>
    obtain ⟨k, b⟩ := kb
    intro as cs ha hb h
    have hset := dset_depth k ha
    unfold mergeItems at h
    cases hd : dget as k with
    | none =>
      simp only [hd] at h
      exact iht _ _ (hset b (hb (k, b) (by simp))) (fun kd h => hb kd (by simp [h])) h
    | some a =>
      simp only [hd] at h
      cases hm : mergeDoc a b with
      | error e => simp [hm] at h
      | ok v =>
        simp only [hm] at h
        exact iht _ _ (hset v (ih a b v (ha _ (mem_of_dget hd)) (hb (k, b) (by simp)) hm))
          (fun kd h => hb kd (by simp [h])) h

theorem mergeDoc_depth : ∀ n a b c, DepthLe n a → DepthLe n b → mergeDoc a b = .ok c → DepthLe n c := by
  intro n
  induction n with
  | zero =>
    intro a b c ha hb h
    rcases mergeDoc_cases h with ⟨-, rfl, -⟩ | ⟨bs, as, cs, rfl, -⟩ | ⟨ys, rfl, -⟩ | ⟨s, rfl, hd, h'⟩ | ⟨h1, h2, h3, h4, h5, h6, rfl⟩
    · exact ha
    · cases hb
    · cases hb
    · rcases h' with ⟨⟨xs, rfl⟩, -⟩ | ⟨_, rfl⟩
      · cases ha
      · exact hb
    · exact hb
  | succ n ih =>
    intro a b c ha hb h
    rcases mergeDoc_cases h with ⟨-, rfl, -⟩ | ⟨bs, as, cs, rfl, has, hcs, rfl⟩ | ⟨ys, rfl, _, rfl, -⟩ | ⟨s, rfl, hd, h'⟩ | ⟨h1, h2, h3, h4, h5, h6, rfl⟩
    · exact ha
    · cases hb with
      | dict _ _ hb =>
        refine .dict _ _ (mergeItems_depth ih bs as cs ?_ hb hcs)
        cases a with
        | null => simp [dictOrEmpty] at has; subst has; simp
        | dict kvs =>
          simp [dictOrEmpty] at has; subst has
          cases ha with
          | dict _ _ ha => exact ha
        | _ => simp [dictOrEmpty] at has
    · exact hb
    · rcases h' with ⟨⟨xs, rfl⟩, rfl⟩ | ⟨_, rfl⟩
      · refine .list _ _ ?_
        intro d hd
        simp at hd
        obtain ⟨c, _, rfl⟩ := hd
        exact .str _ _
      · exact hb
    · exact hb

/-! ### The heap does what the documents do -/

/-- The outcome on the heap is that on documents. -/
def Agrees (hid : Nat → Bool) (r : Heap × Except PyErr Val) : Except PyErr Doc → Prop
  | .ok d => ∃ v, r.2 = .ok v ∧ Reads (view hid r.1) v d
  | .error e => r.2 = .error e

def MergesAt (n : Nat) (f : Heap → Val → Val → Heap × Except PyErr Val) : Prop :=
  ∀ h hid a b da db, (∀ l, hid l = true → l < h.length) → Reads (view hid h) a da → Reads (view hid h) b db →
    DepthLe n da → DepthLe n db → Agrees hid (f h a b) (mergeDoc da db)

theorem itemsAt_eq {h : Heap} {l : Nat} {kvs} (e : h[l]? = some (.dict kvs)) : itemsAt h l = kvs := by
  simp [itemsAt, e]

theorem getElem?_setKey {h : Heap} {la : Nat} {as} (e : h[la]? = some (.dict as)) (k : Str) (v : Val) :
    (setKey h la k v)[la]? = some (.dict (dset as k v)) := by
  have hl := (List.getElem?_eq_some_iff.1 e).1
  simp [setKey, itemsAt_eq e, List.getElem?_set, hl]

theorem keys_agree {n : Nat} {f : Heap → Val → Val → Heap × Except PyErr Val} (hf : Adds f) (hm : MergesAt n f)
    {hid : Nat → Bool} {la : Nat} (hla : hid la = true) :
    ∀ (dbs : List (Str × Doc)) (bs : List (Str × Val)) (h : Heap) as das, (∀ l, hid l = true → l < h.length) →
      h[la]? = some (.dict as) → ReadsItems (view hid h) as das → ReadsItems (view hid h) bs dbs →
      (∀ kd ∈ das, DepthLe n kd.2) → (∀ kd ∈ dbs, DepthLe n kd.2) →
      match mergeItems das dbs with
      | .ok dcs => (mergeKeysH f la h bs).2 = none ∧ ∃ cs, (mergeKeysH f la h bs).1[la]? = some (.dict cs) ∧
          ReadsItems (view hid (mergeKeysH f la h bs).1) cs dcs
      | .error e => (mergeKeysH f la h bs).2 = some e := by
  intro dbs
  induction dbs with
  | nil =>
    intro bs h as das hh hl ha hb _ _
    cases hb
    simp only [mergeItems, mergeKeysH]
    exact ⟨trivial, as, hl, ha⟩
  | cons kd t ih =>
    intro bs h as das hh hl ha hb hda hdb
    cases hb with
    | cons k bv b bs _ hb1 hb2 =>
      unfold mergeItems mergeKeysH
      rw [itemsAt_eq hl]
      have hset := dset_depth k hda
      rcases readsItems_get k ha with ⟨e1, e2⟩ | ⟨av, a, e1, e2, hav⟩
      · rw [e1, e2]
        simp only
        have := ih bs (setKey h la k bv) (dset as k bv) (dset das k b) (by rw [setKey_length]; exact hh)
          (getElem?_setKey hl k bv) (by rw [view_setKey hla]; exact readsItems_set k hb1 ha)
          (by rw [view_setKey hla]; exact hb2) (hset b (hdb (k, b) (by simp))) (fun kd hk => hdb kd (by simp [hk]))
        exact this
      · rw [e1, e2]
        simp only
        have hag := hm h hid av bv a b hh hav hb1 (hda _ (mem_of_dget e2)) (hdb (k, b) (by simp))
        obtain ⟨f1, f2⟩ := hf h av bv
        cases hmd : mergeDoc a b with
        | error e =>
          rw [hmd] at hag
          simp only [Agrees] at hag
          generalize hfr : f h av bv = r at hag
          obtain ⟨h1, r2⟩ := r
          simp only at hag
          subst hag
          simp
        | ok d =>
          rw [hmd] at hag
          obtain ⟨v, hv, hrd⟩ := hag
          generalize hfr : f h av bv = r at hv hrd f1 f2
          obtain ⟨h1, r2⟩ := r
          simp only at hv hrd f1 f2
          subst hv
          simp only
          have hs : Shows (view hid h) (view hid h1) := view_shows_kept f1
          have hl1 : h1[la]? = some (.dict as) := by
            rw [f1 la (hh la hla)]; exact hl
          exact ih bs (setKey h1 la k v) (dset as k v) (dset das k d)
            (by rw [setKey_length]; intro l hl; exact Nat.lt_of_lt_of_le (hh l hl) f2)
            (getElem?_setKey hl1 k v) (by rw [view_setKey hla]; exact readsItems_set k hrd (ha.mono hs))
            (by rw [view_setKey hla]; exact hb2.mono hs)
            (hset d (mergeDoc_depth n a b d (hda _ (mem_of_dget e2)) (hdb (k, b) (by simp)) hmd))
            (fun kd hk => hdb kd (by simp [hk]))

theorem list_agree {n : Nat} {f : Heap → Val → Val → Heap × Except PyErr Val} (hf : Adds f) (hm : MergesAt n f)
    {hid : Nat → Bool} : ∀ (ds : List Doc) (vs : List Val) (h : Heap), (∀ l, hid l = true → l < h.length) →
      ReadsList (view hid h) vs ds → (∀ d ∈ ds, DepthLe n d) →
      match cloneItems ds with
      | .ok cs => ∃ ws, (mergeListH f h vs).2 = .ok ws ∧ ReadsList (view hid (mergeListH f h vs).1) ws cs
      | .error e => (mergeListH f h vs).2 = .error e := by
  intro ds
  induction ds with
  | nil =>
    intro vs h _ hr _
    cases hr
    exact ⟨[], rfl, .nil⟩
  | cons d t ih =>
    intro vs h hh hr hd
    cases hr with
    | cons v _ vs _ h1 h2 =>
      have hag := hm h hid v .null d .null hh h1 .null (hd d (by simp)) (.null _)
      have e : mergeDoc d .null = cloneDoc d := by simp [mergeDoc]
      rw [e] at hag
      obtain ⟨f1, f2⟩ := hf h v .null
      unfold cloneItems mergeListH
      cases hc : cloneDoc d with
      | error er =>
        rw [hc] at hag
        simp only [Agrees] at hag
        generalize hfr : f h v .null = r at hag
        obtain ⟨h1, r2⟩ := r
        simp only at hag
        subst hag
        rfl
      | ok c =>
        rw [hc] at hag
        obtain ⟨w, hw, hrd⟩ := hag
        generalize hfr : f h v .null = r at hw hrd f1 f2
        obtain ⟨h', r2⟩ := r
        simp only at hw hrd f1 f2
        subst hw
        simp only
        have hs : Shows (view hid h) (view hid h') := view_shows_kept f1
        have := ih vs h' (fun l hl => Nat.lt_of_lt_of_le (hh l hl) f2) (h2.mono hs) (fun x hx => hd x (by simp [hx]))
        obtain ⟨k1, k2⟩ := mergeListH_kept hf vs h'
        cases hct : cloneItems t with
        | error er =>
          rw [hct] at this
          simp only at this
          generalize mergeListH f h' vs = q at this
          obtain ⟨h2, q2⟩ := q
          simp only at this
          subst this
          rfl
        | ok cs =>
          rw [hct] at this
          obtain ⟨ws, hws, hrs⟩ := this
          generalize mergeListH f h' vs = q at hws hrs k1 k2
          obtain ⟨h2, q2⟩ := q
          simp only at hws hrs k1 k2
          subst hws
          exact ⟨w :: ws, rfl, .cons _ _ _ _ (Reads.mono (view_shows_kept k1) c w hrd) hrs⟩

theorem asDict_reads {hid : Nat → Bool} {h : Heap} {v : Val} {d : Doc} (hr : Reads (view hid h) v d) :
    (∃ kvs ds, d = .dict ds ∧ asDict h v = some kvs ∧ ReadsItems (view hid h) kvs ds) ∨
    (¬ isDict d ∧ asDict h v = none) := by
  cases hr with
  | dict l kvs ds h1 h2 =>
    unfold view at h1
    split at h1
    · cases h1
    · exact .inl ⟨kvs, ds, rfl, by simp [asDict, h1], h2⟩
  | list l kvs ds h1 h2 =>
    unfold view at h1
    split at h1
    · cases h1
    · exact .inr ⟨by simp [isDict], by simp [asDict, h1]⟩
  | _ => exact .inr ⟨by simp [isDict], rfl⟩

theorem asList_reads {hid : Nat → Bool} {h : Heap} {v : Val} {d : Doc} (hr : Reads (view hid h) v d) :
    (∃ vs ds, d = .list ds ∧ asList h v = some vs ∧ ReadsList (view hid h) vs ds) ∨
    ((∀ ds, d ≠ .list ds) ∧ asList h v = none) := by
  cases hr with
  | list l kvs ds h1 h2 =>
    unfold view at h1
    split at h1
    · cases h1
    · exact .inl ⟨kvs, ds, rfl, by simp [asList, h1], h2⟩
  | dict l kvs ds h1 h2 =>
    unfold view at h1
    split at h1
    · cases h1
    · exact .inr ⟨by simp, by simp [asList, h1]⟩
  | _ => exact .inr ⟨by simp, rfl⟩

theorem null_reads {g : View} {v : Val} {d : Doc} (hr : Reads g v d) : v = .null ↔ d = .null := by
  cases hr <;> simp

theorem copyItems_agrees {hid : Nat → Bool} {h : Heap} {v : Val} {d : Doc} (hr : Reads (view hid h) v d) :
    match dictOrEmpty d with
    | .ok ds => ∃ kvs, copyItems h v = .ok kvs ∧ ReadsItems (view hid h) kvs ds
    | .error e => copyItems h v = .error e := by
  have hn := null_reads hr
  rcases asDict_reads hr with ⟨kvs, ds, rfl, h1, h2⟩ | ⟨h1, h2⟩
  · simp only [dictOrEmpty]
    refine ⟨kvs, ?_, h2⟩
    unfold copyItems
    rw [if_neg (by rw [hn]; simp), h1]
  · unfold copyItems
    by_cases hv : v = .null
    · rw [hn.1 hv]
      simp only [dictOrEmpty, hv, if_true]
      exact ⟨[], rfl, .nil⟩
    · have hd : d ≠ .null := fun e => hv (hn.2 e)
      rw [if_neg hv, h2]
      cases d <;> first | (exact absurd rfl hd) | (exact absurd trivial h1) | rfl

theorem readsList_chars (g : View) (s : Str) :
    ReadsList g (s.map (fun c => Val.str [c])) (s.map (fun c => Doc.str [c])) := by
  induction s with
  | nil => exact .nil
  | cons c t ih => exact .cons _ _ _ _ (.str _) ih

theorem cloneItems_chars (s : Str) : cloneItems (s.map (fun c => Doc.str [c])) = .ok (s.map (fun c => Doc.str [c])) := by
  rw [cloneItems_iff]
  refine ⟨rfl, ?_⟩
  intro x hx
  simp at hx
  obtain ⟨c, _, rfl⟩ := hx
  exact (cloneDoc_isOk _).1 rfl

theorem mergeDoc_dict {a b : Doc} (h : isDict a ∨ isDict b) :
    mergeDoc a b = match dictOrEmpty a with
      | .error e => .error e
      | .ok as => match dictOrEmpty b with
        | .error e => .error e
        | .ok bs => match mergeItems as bs with
          | .error e => .error e
          | .ok cs => .ok (.dict cs) := by
  cases b with
  | dict bs => cases a <;> simp [mergeDoc, dictOrEmpty] <;> cases mergeItems _ bs <;> rfl
  | null => cases a <;> simp_all [isDict, mergeDoc, dictOrEmpty, cloneDoc, mergeItems]
  | _ => cases a <;> simp_all [isDict, mergeDoc, mergeScalar, dictOrEmpty]

/-- What is walked when a list is merged, as documents. -/
def iterDoc : Doc → Except PyErr (List Doc)
  | .str s => .ok (s.map (fun c => .str [c]))
  | .list xs => .ok xs
  | _ => .error .typeError

/-- `b if b is not None else a`. -/
def orElse (b a : Doc) : Doc := match b with
  | .null => a
  | b => b

theorem orElse_ne {b : Doc} (h : b ≠ .null) (a : Doc) : orElse b a = b := by
  cases b <;> first | exact absurd rfl h | rfl

theorem mergeDoc_list {a b : Doc} (ha : ¬ isDict a) (hb : ¬ isDict b) (h : (∃ xs, a = .list xs) ∨ ∃ xs, b = .list xs) :
    mergeDoc a b = match iterDoc (orElse b a) with
      | .error e => .error e
      | .ok xs => match cloneItems xs with
        | .error e => .error e
        | .ok ys => .ok (.list ys) := by
  cases b with
  | null =>
    rcases h with ⟨xs, rfl⟩ | ⟨xs, h⟩
    · simp only [mergeDoc, orElse, iterDoc, cloneDoc]; cases cloneItems xs <;> rfl
    · cases h
  | dict bs => exact absurd trivial hb
  | list ys =>
    cases a <;> first | exact absurd trivial ha | (simp only [mergeDoc, orElse, iterDoc]; cases cloneItems ys <;> rfl)
  | str s =>
    simp only [orElse, iterDoc, cloneItems_chars]
    rcases h with ⟨xs, rfl⟩ | ⟨xs, h⟩
    · simp only [mergeDoc]
    · cases h
  | _ =>
    rcases h with ⟨xs, rfl⟩ | ⟨xs, h⟩
    · simp [mergeDoc, mergeScalar, iterDoc, orElse]
    · cases h

theorem mergeDoc_scalar {a b : Doc} (ha : ¬ isDict a) (hb : ¬ isDict b) (ha' : ∀ xs, a ≠ .list xs) (hb' : ∀ xs, b ≠ .list xs) :
    (a = .null ∧ b = .null → mergeDoc a b = .error .validationError) ∧
    (¬ (a = .null ∧ b = .null) → mergeDoc a b = .ok (orElse b a)) := by
  cases b with
  | dict bs => exact absurd trivial hb
  | list ys => exact absurd rfl (hb' ys)
  | null => cases a <;> simp_all [mergeDoc, cloneDoc, isDict, orElse]
  | _ => cases a <;> simp_all [mergeDoc, mergeScalar, isDict, orElse]

theorem scalars_agree {hid : Nat → Bool} {h : Heap} {a b : Val} {da db : Doc} (ha : Reads (view hid h) a da)
    (hb : Reads (view hid h) b db) (n1 : ¬ isDict da) (n2 : ¬ isDict db) (n3 : ∀ xs, da ≠ .list xs)
    (n4 : ∀ xs, db ≠ .list xs) :
    Agrees hid (if a = .null ∧ b = .null then (h, .error .validationError) else (h, .ok (if b ≠ .null then b else a)))
      (mergeDoc da db) := by
  have hna := null_reads ha
  have hnb := null_reads hb
  obtain ⟨s1, s2⟩ := mergeDoc_scalar n1 n2 n3 n4
  by_cases hnn : da = .null ∧ db = .null
  · rw [s1 hnn, if_pos ⟨hna.2 hnn.1, hnb.2 hnn.2⟩]; rfl
  · rw [s2 hnn, if_neg (fun e => hnn ⟨hna.1 e.1, hnb.1 e.2⟩)]
    by_cases hx : db = .null
    · rw [hx]
      simp only [hnb.2 hx, ne_eq, not_true_eq_false, if_false]
      exact ⟨a, rfl, ha⟩
    · rw [orElse_ne hx]
      have : b ≠ .null := fun e => hx (hnb.1 e)
      simp only [this, ne_eq, not_false_eq_true, if_true]
      exact ⟨b, rfl, hb⟩

theorem iterItems_agrees {hid : Nat → Bool} {h : Heap} {v : Val} {d : Doc} (hr : Reads (view hid h) v d) :
    match iterDoc d with
    | .ok ds => ∃ vs, iterItems h v = .ok vs ∧ ReadsList (view hid h) vs ds
    | .error e => iterItems h v = .error e := by
  cases hr with
  | str s => exact ⟨_, rfl, readsList_chars _ s⟩
  | list l vs ds h1 h2 =>
    unfold view at h1
    split at h1
    · cases h1
    · exact ⟨vs, by simp [iterItems, asList, h1], h2⟩
  | dict l kvs ds h1 h2 =>
    unfold view at h1
    split at h1
    · cases h1
    · simp [iterDoc, iterItems, asList, h1]
  | _ => rfl

theorem iterDoc_depth {n : Nat} {d : Doc} (h : DepthLe (n + 1) d) {xs : List Doc} (e : iterDoc d = .ok xs) :
    ∀ x ∈ xs, DepthLe n x := by
  cases d with
  | str s =>
    simp [iterDoc] at e
    subst e
    intro x hx
    simp at hx
    obtain ⟨c, _, rfl⟩ := hx
    exact .str _ _
  | list ys =>
    simp [iterDoc] at e
    subst e
    cases h with
    | list _ _ h => exact h
  | _ => simp [iterDoc] at e

theorem dictOrEmpty_depth {n : Nat} {d : Doc} (h : DepthLe (n + 1) d) {xs : List (Str × Doc)} (e : dictOrEmpty d = .ok xs) :
    ∀ kd ∈ xs, DepthLe n kd.2 := by
  cases d with
  | null => simp [dictOrEmpty] at e; subst e; simp
  | dict ys =>
    simp [dictOrEmpty] at e
    subst e
    cases h with
    | dict _ _ h => exact h
  | _ => simp [dictOrEmpty] at e

theorem mergeH_agrees : ∀ n, MergesAt n (mergeH (n + 1)) := by
  intro n
  induction n with
  | zero =>
    intro h hid a b da db hh ha hb hda hdb
    have hna := null_reads ha
    have hnb := null_reads hb
    have n1 : ¬ isDict da := by cases hda <;> simp [isDict]
    have n2 : ¬ isDict db := by cases hdb <;> simp [isDict]
    have n3 : ∀ xs, da ≠ .list xs := by cases hda <;> simp
    have n4 : ∀ xs, db ≠ .list xs := by cases hdb <;> simp
    have e1 : asDict h a = none := by
      rcases asDict_reads ha with ⟨_, _, rfl, -⟩ | h
      · exact absurd trivial n1
      · exact h.2
    have e2 : asDict h b = none := by
      rcases asDict_reads hb with ⟨_, _, rfl, -⟩ | h
      · exact absurd trivial n2
      · exact h.2
    have e3 : asList h a = none := by
      rcases asList_reads ha with ⟨_, _, rfl, -⟩ | h
      · exact absurd rfl (n3 _)
      · exact h.2
    have e4 : asList h b = none := by
      rcases asList_reads hb with ⟨_, _, rfl, -⟩ | h
      · exact absurd rfl (n4 _)
      · exact h.2
    unfold mergeH
    simp only [e1, e2, e3, e4, Option.isSome_none, Bool.false_eq_true, or_self, if_false]
    exact scalars_agree ha hb n1 n2 n3 n4
  | succ n ih =>
    intro h hid a b da db hh ha hb hda hdb
    have hna := null_reads ha
    have hnb := null_reads hb
    have hadd := mergeH_adds (n + 1)
    have hD : ((asDict h a).isSome ∨ (asDict h b).isSome) ↔ (isDict da ∨ isDict db) := by
      have k1 : (asDict h a).isSome ↔ isDict da := by
        rcases asDict_reads ha with ⟨_, _, rfl, e, -⟩ | ⟨e1, e2⟩
        · simp [e, isDict]
        · simp [e2, e1]
      have k2 : (asDict h b).isSome ↔ isDict db := by
        rcases asDict_reads hb with ⟨_, _, rfl, e, -⟩ | ⟨e1, e2⟩
        · simp [e, isDict]
        · simp [e2, e1]
      rw [k1, k2]
    have hL : ((asList h a).isSome ∨ (asList h b).isSome) ↔ ((∃ xs, da = .list xs) ∨ ∃ xs, db = .list xs) := by
      have k1 : (asList h a).isSome ↔ ∃ xs, da = .list xs := by
        rcases asList_reads ha with ⟨_, _, rfl, e, -⟩ | ⟨e1, e2⟩
        · simp [e]
        · simp [e2, e1]
      have k2 : (asList h b).isSome ↔ ∃ xs, db = .list xs := by
        rcases asList_reads hb with ⟨_, _, rfl, e, -⟩ | ⟨e1, e2⟩
        · simp [e]
        · simp [e2, e1]
      rw [k1, k2]
    rw [mergeH]
    by_cases hd : isDict da ∨ isDict db
    · rw [if_pos (hD.2 hd), mergeDoc_dict hd]
      have c1 := copyItems_agrees ha
      have c2 := copyItems_agrees hb
      cases x1 : dictOrEmpty da with
      | error e =>
        rw [x1] at c1
        simp only at c1 ⊢
        rw [c1]
        rfl
      | ok das =>
        rw [x1] at c1
        obtain ⟨as, y1, r1⟩ := c1
        rw [y1]
        simp only
        cases x2 : dictOrEmpty db with
        | error e =>
          rw [x2] at c2
          simp only at c2 ⊢
          rw [c2]
          rfl
        | ok dbs =>
          rw [x2] at c2
          obtain ⟨bs, y2, r2⟩ := c2
          rw [y2]
          simp only
          have hs : Shows (view hid h) (view (fun l => hid l || l == h.length) (h ++ [.dict as])) := by
            intro l o hl
            unfold view at *
            split at hl
            · cases hl
            · rename_i hh'
              have hlt := (List.getElem?_eq_some_iff.1 hl).1
              have hne : (l == h.length) = false := by simp; omega
              simp only [hh', hne, Bool.or_false, Bool.false_eq_true, if_false]
              rw [List.getElem?_append_left hlt]
              exact hl
          have key := keys_agree hadd ih (hid := fun l => hid l || l == h.length) (la := h.length) (by simp) dbs bs
            (h ++ [.dict as]) as das
            (by
              intro l hl
              simp at hl ⊢
              rcases hl with hl | hl
              · have := hh l hl; omega
              · omega)
            (by simp) (r1.mono hs) (r2.mono hs) (dictOrEmpty_depth hda x1) (dictOrEmpty_depth hdb x2)
          cases x3 : mergeItems das dbs with
          | error e =>
            rw [x3] at key
            simp only at key ⊢
            generalize mergeKeysH (mergeH (n + 1)) h.length (h ++ [.dict as]) bs = q at key
            obtain ⟨h1, q2⟩ := q
            simp only at key
            subst key
            rfl
          | ok dcs =>
            rw [x3] at key
            simp only at key ⊢
            generalize mergeKeysH (mergeH (n + 1)) h.length (h ++ [.dict as]) bs = q at key
            obtain ⟨h1, q2⟩ := q
            obtain ⟨k1, cs, k2, k3⟩ := key
            simp only at k1 k2 k3
            subst k1
            refine ⟨.ref h.length, rfl, .dict _ cs _ ?_ ?_⟩
            · unfold view
              have : hid h.length = false := by
                cases hx : hid h.length with
                | false => rfl
                | true => exact absurd (hh _ hx) (Nat.lt_irrefl _)
              simp only [this, Bool.false_eq_true, if_false]
              exact k2
            · refine k3.mono ?_
              intro l o hl
              unfold view at *
              split at hl
              · cases hl
              · rename_i hh'
                simp at hh'
                rw [hh'.1]
                exact hl
    · rw [if_neg (fun e => hd (hD.1 e))]
      rw [not_or] at hd
      by_cases hl : (∃ xs, da = .list xs) ∨ ∃ xs, db = .list xs
      · rw [if_pos (hL.2 hl), mergeDoc_list hd.1 hd.2 hl]
        have hrv : Reads (view hid h) (if b ≠ .null then b else a) (orElse db da) := by
          by_cases hx : db = .null
          · rw [hx]; simp only [hnb.2 hx, ne_eq, not_true_eq_false, if_false]; exact ha
          · have : b ≠ .null := fun e => hx (hnb.1 e)
            rw [orElse_ne hx]
            simp only [this, ne_eq, not_false_eq_true, if_true]; exact hb
        have hdv : DepthLe (n + 1) (orElse db da) := by
          by_cases hx : db = .null
          · rw [hx]; exact hda
          · rw [orElse_ne hx]; exact hdb
        have it := iterItems_agrees hrv
        generalize orElse db da = dv at hrv hdv it ⊢
        generalize (if b ≠ .null then b else a) = vv at hrv it ⊢
        cases x1 : iterDoc dv with
        | error e =>
          rw [x1] at it
          simp only at it ⊢
          rw [it]
          rfl
        | ok ds =>
          rw [x1] at it
          obtain ⟨vs, y1, r1⟩ := it
          rw [y1]
          simp only
          have key := list_agree hadd ih ds vs h hh r1 (iterDoc_depth hdv x1)
          cases x2 : cloneItems ds with
          | error e =>
            rw [x2] at key
            simp only at key ⊢
            generalize mergeListH (mergeH (n + 1)) h vs = q at key
            obtain ⟨h1, q2⟩ := q
            simp only at key
            subst key
            rfl
          | ok cs =>
            rw [x2] at key
            have hk := mergeListH_kept hadd vs h
            simp only at key ⊢
            generalize mergeListH (mergeH (n + 1)) h vs = q at key hk
            obtain ⟨h1, q2⟩ := q
            obtain ⟨ws, k1, k2⟩ := key
            simp only at k1 k2 hk
            subst k1
            refine ⟨.ref h1.length, rfl, .list _ ws _ ?_ ?_⟩
            · unfold view
              have : hid h1.length = false := by
                cases hx : hid h1.length with
                | false => rfl
                | true => exact absurd (Nat.lt_of_lt_of_le (hh _ hx) hk.2) (Nat.lt_irrefl _)
              simp [this]
            · exact k2.mono (view_shows_kept (Kept.append h1 _))
      · rw [if_neg (fun e => hl (hL.1 e))]
        rw [not_or] at hl
        exact scalars_agree ha hb hd.1 hd.2 (fun xs e => hl.1 ⟨xs, e⟩) (fun xs e => hl.2 ⟨xs, e⟩)

end Model
