import Verif.Lemmas.PandelHeap
import Verif.Lemmas.PmodHeap
set_option linter.unusedSimpArgs false
/-
C92: whom the defaults of a schema belong to.
-/
namespace Props
open Py Model Spec

/-- What the value refers to, if anything, is in the set. -/
private def InSet (S : Nat → Prop) (v : Val) : Prop := ∀ l, v = .ref l → S l

/-- What is in the set refers to nothing outside of it. -/
private structure Closed (S : Nat → Prop) (h : Heap) : Prop where
  list : ∀ l vs, S l → h[l]? = some (.list vs) → ∀ v ∈ vs, InSet S v
  dict : ∀ l kvs, S l → h[l]? = some (.dict kvs) → ∀ p ∈ kvs, InSet S p.2

/-- Nothing outside of the set has changed. -/
private def Outside (S : Nat → Prop) (h h' : Heap) : Prop := ∀ l, ¬ S l → h'[l]? = h[l]?

private theorem closed_set {S : Nat → Prop} {h : Heap} (hc : Closed S h) (l : Nat) (hl : S l) (k : Str) (x : Val)
    (hx : InSet S x) : Closed S (setKey h l k x) ∧ Outside S h (setKey h l k x) := by
  unfold setKey
  refine ⟨⟨?_, ?_⟩, ?_⟩
  · intro m vs hm hv
    rw [List.getElem?_set] at hv
    split at hv
    · split at hv <;> simp at hv
    · exact hc.list m vs hm hv
  · intro m kvs hm hv p hp
    rw [List.getElem?_set] at hv
    split at hv
    · split at hv
      · simp only [Option.some.injEq, Obj.dict.injEq] at hv
        subst hv
        rcases Lemmas.mem_dset_cases hp with h1 | h1
        · unfold itemsAt at h1
          split at h1
          · next kvs e => exact hc.dict l kvs hl e p h1
          · cases h1
        · rw [h1]; exact hx
      · cases hv
    · exact hc.dict m kvs hm hv p hp
  · intro m hm
    rw [List.getElem?_set_ne]
    rintro rfl; exact hm hl

private theorem fill_closed {S : Nat → Prop} (l : Nat) (hl : S l) (ps : List (Str × DSchema))
    (hp : ∀ p ∈ ps, ∀ x, p.2.default = some x → InSet S x) : ∀ h, Closed S h →
    Closed S (fillH h l ps) ∧ Outside S h (fillH h l ps) := by
  induction ps with
  | nil => intro h hc; exact ⟨hc, fun _ _ => rfl⟩
  | cons a t ih =>
    obtain ⟨k, s⟩ := a
    intro h hc
    have ih' := ih (fun q hq => hp q (List.mem_cons_of_mem _ hq))
    unfold fillH
    split
    · next d hd _ =>
      obtain ⟨c1, o1⟩ := closed_set hc l hl k d (hp (k, s) (by simp) d hd)
      obtain ⟨c2, o2⟩ := ih' _ c1
      exact ⟨c2, fun m hm => (o2 m hm).trans (o1 m hm)⟩
    · exact ih' h hc

private theorem get_inSet {S : Nat → Prop} {h : Heap} (hc : Closed S h) {l : Nat} (hl : S l) {k : Str} {v : Val}
    (hv : dget (itemsAt h l) k = some v) : InSet S v := by
  unfold itemsAt at hv
  split at hv
  · next kvs e => exact hc.dict l kvs hl e _ (mem_of_dget hv)
  · simp at hv

private theorem defaults_closed {S : Nat → Prop} (s : DSchema) : (∀ x, IsDefault s x → InSet S x) → ∀ h v, Closed S h →
    InSet S v → Closed S (defaultsH s h v) ∧ Outside S h (defaultsH s h v) := by
  refine DSchema.rec (motive_1 := fun s => (∀ x, IsDefault s x → InSet S x) → ∀ h v, Closed S h → InSet S v →
      Closed S (defaultsH s h v) ∧ Outside S h (defaultsH s h v))
    (motive_2 := fun ps => (∀ p ∈ ps, ∀ x, IsDefault p.2 x → InSet S x) → ∀ h l, Closed S h → S l →
      Closed S (defaultsInH ps h l) ∧ Outside S h (defaultsInH ps h l))
    (motive_3 := fun p => (∀ x, IsDefault p.2 x → InSet S x) → ∀ h v, Closed S h → InSet S v →
      Closed S (defaultsH p.2 h v) ∧ Outside S h (defaultsH p.2 h v)) ?_ ?_ ?_ ?_ s
  · intro d ps ih hd h v hc hv
    unfold defaultsH
    split
    · split
      · next l _ kvs hl =>
        have hS := hv l rfl
        obtain ⟨c1, o1⟩ := fill_closed l hS ps (fun p hp x hx => hd x (.here d ps p.1 p.2 x hp hx)) h hc
        obtain ⟨c2, o2⟩ := ih (fun p hp x hx => hd x (.inside d ps p.1 p.2 x hp hx)) _ l c1 hS
        exact ⟨c2, fun m hm => (o2 m hm).trans (o1 m hm)⟩
      · exact ⟨hc, fun _ _ => rfl⟩
    · exact ⟨hc, fun _ _ => rfl⟩
  · intro _ h l hc _; exact ⟨by simpa [defaultsInH] using hc, by simp [defaultsInH, Outside]⟩
  · intro p ps hp hps hd h l hc hl
    obtain ⟨k, s⟩ := p
    unfold defaultsInH
    split
    · next v hv =>
      obtain ⟨c1, o1⟩ := hp (hd (k, s) (by simp)) h v hc (get_inSet hc hl hv)
      obtain ⟨c2, o2⟩ := hps (fun q hq => hd q (List.mem_cons_of_mem _ hq)) _ l c1 hl
      exact ⟨c2, fun m hm => (o2 m hm).trans (o1 m hm)⟩
    · exact hps (fun q hq => hd q (List.mem_cons_of_mem _ hq)) h l hc hl
  · intro k s h; exact h

private theorem readsList_on {P : Val → Prop} {g g' : View} {ds : List Doc} (ih : ∀ d ∈ ds, ∀ v, P v → Reads g v d → Reads g' v d) :
    ∀ vs, (∀ v ∈ vs, P v) → ReadsList g vs ds → ReadsList g' vs ds := by
  induction ds with
  | nil => intro vs _ h; cases h; exact .nil
  | cons d t iht =>
    intro vs hv h
    cases h with
    | cons v _ vs _ h1 h2 =>
      exact .cons _ _ _ _ (ih d (by simp) v (hv v (by simp)) h1)
        (iht (fun x hx => ih x (by simp [hx])) vs (fun x hx => hv x (by simp [hx])) h2)

private theorem readsItems_on {P : Val → Prop} {g g' : View} {ds : List (Str × Doc)}
    (ih : ∀ kd ∈ ds, ∀ v, P v → Reads g v kd.2 → Reads g' v kd.2) :
    ∀ vs, (∀ p ∈ vs, P p.2) → ReadsItems g vs ds → ReadsItems g' vs ds := by
  induction ds with
  | nil => intro vs _ h; cases h; exact .nil
  | cons d t iht =>
    intro vs hv h
    cases h with
    | cons k v d vs _ h1 h2 =>
      exact .cons _ _ _ _ _ (ih (k, d) (by simp) v (hv (k, v) (by simp)) h1)
        (iht (fun x hx => ih x (by simp [hx])) vs (fun x hx => hv x (by simp [hx])) h2)

/-- A value whose objects have not changed reads the same. -/
private theorem reads_same {S : Nat → Prop} {h h' : Heap} (hc : Closed S h) (hs : ∀ l, S l → h'[l]? = h[l]?) (d : Doc) :
    ∀ v, InSet S v → Reads (whole h) v d → Reads (whole h') v d := by
  induction d using Doc.ind with
  | h0 => intro v _ h; cases h; exact .null
  | h1 b => intro v _ h; cases h; exact .bool _
  | h2 b => intro v _ h; cases h; exact .int _
  | h3 b => intro v _ h; cases h; exact .atom _
  | h4 b => intro v _ h; cases h; exact .str _
  | h5 xs ih =>
    intro v hv h
    cases h with
    | list l vs _ h1 h2 =>
      exact .list l vs _ ((hs l (hv l rfl)).trans h1) (readsList_on ih vs (hc.list l vs (hv l rfl) h1) h2)
  | h6 kvs ih =>
    intro v hv h
    cases h with
    | dict l vs _ h1 h2 =>
      exact .dict l vs _ ((hs l (hv l rfl)).trans h1) (readsItems_on ih vs (hc.dict l vs (hv l rfl) h1) h2)

private theorem closed_reach (h : Heap) (P : Val → Prop) : Closed (fun l => ∃ v, P v ∧ Inside h v l) h := by
  refine ⟨?_, ?_⟩
  · rintro l vs ⟨x, hx, hr⟩ hl v hv m rfl
    exact ⟨x, hx, .item l vs m hr hl hv⟩
  · rintro l kvs ⟨x, hx, hr⟩ hl p hp m hm
    obtain ⟨k, v⟩ := p
    simp only at hm; subst hm
    exact ⟨x, hx, .entry l kvs k m hr hl hp⟩

/-- C92: filling in the defaults of a document writes only to objects of the document and of the defaults of
the schema. -/
theorem C92_writes (s : DSchema) (h : Heap) (v : Val) (l : Nat) (hv : ¬ Inside h v l)
    (hd : ∀ x, IsDefault s x → ¬ Inside h x l) : (defaultsH s h v)[l]? = h[l]? := by
  refine (defaults_closed s (S := fun l => ∃ x, (x = v ∨ IsDefault s x) ∧ Inside h x l) ?_ h v (closed_reach h _) ?_).2 l ?_
  · intro x hx m hm; exact ⟨x, .inr hx, .here m hm⟩
  · intro m hm; exact ⟨v, .inl rfl, .here m hm⟩
  · rintro ⟨x, rfl | hx, hr⟩
    · exact hv hr
    · exact hd x hx hr

/-- C92: another document, that shares no object with the one validated nor with a default of the schema, is
as it was. -/
theorem C92_others (s : DSchema) (h : Heap) (v w : Val) (d : Doc) (hvw : Apart h w v)
    (hd : ∀ x, IsDefault s x → Apart h w x) (hw : Reads (whole h) w d) : Reads (whole (defaultsH s h v)) w d := by
  refine reads_same (S := fun l => ∃ x, x = w ∧ Inside h x l) (closed_reach h _) ?_ d w (fun l hl => ⟨w, rfl, .here l hl⟩) hw
  rintro l ⟨x, rfl, hr⟩
  exact C92_writes s h v l (hvw l hr) (fun y hy => hd y hy l hr)

private theorem reach_scalar {h : Heap} {x : Val} (hx : ∀ l, x ≠ .ref l) {l : Nat} (hr : Inside h x l) : False := by
  induction hr with
  | here l e => exact hx l e
  | item _ _ _ _ _ _ ih => exact ih
  | entry _ _ _ _ _ _ _ ih => exact ih

/-- C92: where all defaults are scalars, validating a document changes no other document that shares no object
with it, and afterwards they still share none. See `C92_shared_refuted` for other defaults. -/
theorem C92_scalars_partial (s : DSchema) (h : Heap) (v w : Val) (d : Doc) (hvw : Apart h w v)
    (hs : ∀ x, IsDefault s x → ∀ l, x ≠ .ref l) (hw : Reads (whole h) w d) :
    Reads (whole (defaultsH s h v)) w d ∧ Apart (defaultsH s h v) w v := by
  refine ⟨C92_others s h v w d hvw (fun x hx l _ hr => reach_scalar (hs x hx) hr) hw, ?_⟩
  -- the objects of `v` are closed, before and after
  have hc := defaults_closed s (S := Inside h v) (fun x hx l hl => absurd hl (hs x hx l)) h v
    (by have := closed_reach h (fun x => x = v)
        have e : (fun l => ∃ x, x = v ∧ Inside h x l) = Inside h v := by
          funext l; exact propext ⟨fun ⟨x, hx, hr⟩ => hx ▸ hr, fun hr => ⟨v, rfl, hr⟩⟩
        rwa [e] at this) (fun l hl => .here l hl)
  have hv : ∀ l, Inside (defaultsH s h v) v l → Inside h v l := by
    intro l hr
    induction hr with
    | here l e => exact .here l e
    | item l vs m _ hl hm ih => exact hc.1.list l vs ih hl _ hm m rfl
    | entry l kvs k m _ hl hm ih => exact hc.1.dict l kvs ih hl _ hm m rfl
  have hwr : ∀ l, Inside (defaultsH s h v) w l → Inside h w l := by
    intro l hr
    induction hr with
    | here l e => exact .here l e
    | item l vs m _ hl hm ih => exact .item l vs m ih ((hc.2 l (hvw l ih)).symm.trans hl) hm
    | entry l kvs k m _ hl hm ih => exact .entry l kvs k m ih ((hc.2 l (hvw l ih)).symm.trans hl) hm
  intro l h1 h2
  exact hvw l (hwr l h1) (hv l h2)

/-- `{"properties": {"a": {"default": {}, "properties": {"b": {"default": 1}}}}}` with its default at 0. -/
private def nested : DSchema := .mk none [("a".toList, .mk (some (.ref 0)) [("b".toList, .mk (some (.int 1)) [])])]

private theorem apart_empty {h : Heap} {l m : Nat} (hl : h[l]? = some (.dict [])) (hm : h[m]? = some (.dict []))
    (hne : l ≠ m) : Apart h (.ref l) (.ref m) := by
  have only : ∀ {n k}, h[n]? = some (.dict []) → Inside h (.ref n) k → k = n := by
    intro n k hn hr
    induction hr with
    | here k e => cases e; rfl
    | item k vs j _ hk _ ih => subst ih; rw [hn] at hk; cases hk
    | entry k kvs q j _ hk hj ih => subst ih; rw [hn] at hk; cases hk; cases hj
  intro k h1 h2
  exact hne ((only hl h1).symm.trans (only hm h2))

/-- C92 fails for defaults that are objects: validating a document changes the default of the schema, and what
is then written in the document shows up in a document that is validated later, though the two shared no
object before. -/
theorem C92_shared_refuted : ∃ (s : DSchema) (h : Heap) (v w dflt : Val) (la : Nat), IsDefault s dflt ∧
    Apart h w v ∧ Apart h w dflt ∧ Apart h v dflt ∧
    Reads (whole h) v (.dict []) ∧ Reads (whole h) w (.dict []) ∧ Reads (whole h) dflt (.dict []) ∧
    -- the schema changes
    Reads (whole (defaultsH s h v)) dflt (.dict [("b".toList, .int 1)]) ∧
    -- `v["a"]["b"] = 5`
    (∃ lv, v = .ref lv ∧ dget (itemsAt (defaultsH s h v) lv) "a".toList = some (.ref la)) ∧
    Reads (whole (defaultsH s (setKey (defaultsH s h v) la "b".toList (.int 5)) w)) w
      (.dict [("a".toList, .dict [("b".toList, .int 5)])]) := by
  refine ⟨nested, [.dict [], .dict [], .dict []], .ref 1, .ref 2, .ref 0, 0, .here _ _ "a".toList (.mk (some (.ref 0)) [("b".toList, .mk (some (.int 1)) [])]) _ (.head _) rfl,
    apart_empty rfl rfl (by decide), apart_empty rfl rfl (by decide), apart_empty rfl rfl (by decide),
    .dict 1 _ _ rfl .nil, .dict 2 _ _ rfl .nil, .dict 0 _ _ rfl .nil, ?_, ⟨1, rfl, by decide +kernel⟩, ?_⟩
  · exact .dict 0 [("b".toList, .int 1)] _ (by decide +kernel) (.cons _ _ _ _ _ (.int 1) .nil)
  · exact .dict 2 [("a".toList, .ref 0)] _ (by decide +kernel)
      (.cons _ _ _ _ _ (.dict 0 [("b".toList, .int 5)] _ (by decide +kernel) (.cons _ _ _ _ _ (.int 5) .nil)) .nil)

/-- A schema with a scalar default, and two documents. -/
example : let s : DSchema := .mk none [("a".toList, .mk (some (.int 1)) [])]
    let h : Heap := [.dict [], .dict []]
    Reads (whole (defaultsH s h (.ref 0))) (.ref 1) (.dict []) ∧
    Reads (whole (defaultsH s h (.ref 0))) (.ref 0) (.dict [("a".toList, .int 1)]) := by
  refine ⟨(C92_scalars_partial _ _ (.ref 0) (.ref 1) _ (apart_empty rfl rfl (by decide)) ?_ (.dict 1 _ _ rfl .nil)).1, ?_⟩
  · intro x hx
    cases hx with
    | here _ _ k s _ hm hd => simp at hm; obtain ⟨_, rfl⟩ := hm; cases hd; intro l e; cases e
    | inside _ _ k s _ hm hd => simp at hm; obtain ⟨_, rfl⟩ := hm; cases hd with
      | here _ _ _ _ _ hm => cases hm
      | inside _ _ _ _ _ hm => cases hm
  · exact .dict 0 [("a".toList, .int 1)] _ (by decide +kernel) (.cons _ _ _ _ _ (.int 1) .nil)

end Props
