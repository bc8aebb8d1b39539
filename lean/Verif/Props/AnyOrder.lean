import Verif.Spec.AnyOrder
import Verif.Props.Pandel
import Verif.Props.Combined
/-
C162: submodels that nowhere disagree can be added in any order.
-/
namespace Props
open Py Model Spec

private theorem gathers_congr {D D' : Doc → Prop} {m : Doc} (h : Gathers D m) (e : ∀ d, D d ↔ D' d) : Gathers D' m :=
  (funext fun d => propext (e d)) ▸ h

private theorem gathers_one (v : Doc) : Gathers (fun d => d = v) v := by
  induction v using Doc.ind with
  | h0 => exact .nothing _ (fun d h => h)
  | h1 b => exact .value _ _ (by simp) (by simp [isDict]) rfl (fun d h => .inr h)
  | h2 b => exact .value _ _ (by simp) (by simp [isDict]) rfl (fun d h => .inr h)
  | h3 b => exact .value _ _ (by simp) (by simp [isDict]) rfl (fun d h => .inr h)
  | h4 b => exact .value _ _ (by simp) (by simp [isDict]) rfl (fun d h => .inr h)
  | h5 xs _ => exact .value _ _ (by simp) (by simp [isDict]) rfl (fun d h => .inr h)
  | h6 kvs ih =>
    refine .object _ _ ⟨kvs, rfl⟩ (fun d h => .inr (by rw [h]; trivial)) (fun k => ?_) (fun k v hv => ?_)
    · constructor
      · intro h; exact ⟨kvs, rfl, h⟩
      · rintro ⟨as, e, h⟩; cases e; exact h
    · refine gathers_congr (ih _ (mem_of_dget hv)) (fun d => ?_)
      constructor
      · rintro rfl; exact ⟨kvs, rfl, hv⟩
      · rintro ⟨as, e, h⟩; cases e; rw [hv] at h; cases h; rfl

private theorem gathers_null {D : Doc → Prop} {m : Doc} (h : Gathers D m) : Gathers (fun d => D d ∨ d = .null) m := by
  cases h with
  | nothing _ h => exact .nothing _ (fun d hd => hd.elim (h d) id)
  | value _ _ h1 h2 h3 h4 => exact .value _ _ h1 h2 (.inl h3) (fun d hd => hd.elim (h4 d) .inl)
  | object _ kvs h1 h2 h3 h4 =>
    obtain ⟨as, ha⟩ := h1
    refine .object _ _ ⟨as, .inl ha⟩ (fun d hd => hd.elim (h2 d) .inl) (fun k => ?_) (fun k v hv => gathers_congr (h4 k v hv) (fun d => ?_))
    · rw [h3 k]; simp
    · simp

private theorem value_merge {a b c : Doc} (hb : b ≠ .null) (hd : ¬ isDict b) (ha : ¬ isDict a) (hl : ∀ xs s, a = .list xs → b ≠ .str s)
    (h : mergeDoc a b = .ok c) : c = b := by
  rcases mergeDoc_cases h with ⟨e, -⟩ | ⟨_, _, _, e, -⟩ | ⟨_, e, _, e', -⟩ | ⟨s, e, _, ⟨⟨xs, hx⟩, -⟩ | ⟨-, e'⟩⟩ | ⟨_, _, _, _, _, _, e'⟩
  · exact absurd e hb
  · rw [e] at hd; exact absurd trivial hd
  · rw [e, e']
  · exact absurd e (hl xs s hx)
  · rw [e, e']
  · exact e'

private theorem value_step {D : Doc → Prop} {m b m' : Doc} (hb : b ≠ .null) (hd : ¬ isDict b) (hg : Gathers D m)
    (ha : ∀ d, D d → Agree d b) (h : mergeDoc m b = .ok m') : Gathers (fun d => D d ∨ d = b) m' := by
  cases hg with
  | nothing _ h1 =>
    rw [value_merge hb hd (by simp [isDict]) (by simp) h]
    exact .value _ _ hb hd (.inr rfl) (fun d hx => hx.elim (fun hx => .inl (h1 d hx)) .inr)
  | value _ v h1 h2 h3 h4 =>
    have e : m = b := by
      cases ha _ h3 with
      | left => exact absurd rfl h1
      | right => exact absurd rfl hb
      | same => rfl
      | objects => exact absurd trivial h2
    subst e
    rw [value_merge hb hd h2 (by rintro xs s rfl; simp) h]
    exact .value _ _ hb hd (.inr rfl) (fun d hx => hx.elim (h4 d) .inr)
  | object _ kvs h1 =>
    obtain ⟨as, has⟩ := h1
    have key : ∀ a, Agree a b → isDict a → False := by
      intro a hab hia
      cases hab with
      | left => exact hia
      | right => exact hb rfl
      | same => exact hd hia
      | objects => exact hd trivial
    exact (key _ (ha _ has) trivial).elim

private theorem agree_inside {as bs : List (Str × Doc)} (h : Agree (.dict as) (.dict bs)) {k : Str} {x y : Doc}
    (hx : dget as k = some x) (hy : dget bs k = some y) : Agree x y := by
  cases h with
  | same _ h => exact absurd trivial h
  | objects _ _ h => exact h k x y hx hy

private theorem gathers_step (b : Doc) : ∀ (D : Doc → Prop) (m m' : Doc), KeysOk m → KeysOk b → Gathers D m → (∀ d, D d → Agree d b) →
    mergeDoc m b = .ok m' → Gathers (fun d => D d ∨ d = b) m' := by
  induction b using Doc.ind with
  | h0 =>
    intro D m m' _ _ hg _ h
    rcases mergeDoc_cases h with ⟨-, rfl, -⟩ | ⟨_, _, _, e, -⟩ | ⟨_, e, -⟩ | ⟨s, e, -⟩ | ⟨e, -⟩
    · exact gathers_null hg
    · cases e
    · cases e
    · cases e
    · exact absurd rfl e
  | h1 b => intro D m m' _ _ hg ha h; exact value_step (by simp) (by simp [isDict]) hg ha h
  | h2 b => intro D m m' _ _ hg ha h; exact value_step (by simp) (by simp [isDict]) hg ha h
  | h3 b => intro D m m' _ _ hg ha h; exact value_step (by simp) (by simp [isDict]) hg ha h
  | h4 b => intro D m m' _ _ hg ha h; exact value_step (by simp) (by simp [isDict]) hg ha h
  | h5 xs _ => intro D m m' _ _ hg ha h; exact value_step (by simp) (by simp [isDict]) hg ha h
  | h6 bs ih =>
    intro D m m' hm hb hg ha h
    obtain ⟨hnd, hbk⟩ := keysOk_dict hb
    cases hg with
    | nothing _ h1 =>
      simp only [mergeDoc, dictOrEmpty] at h
      cases hc : mergeItems [] bs with
      | error e => rw [hc] at h; cases h
      | ok cs =>
        rw [hc] at h
        cases h
        rw [mergeItems_nil bs cs hnd hc]
        have := gathers_one (.dict bs)
        cases this with
        | object _ _ g1 g2 g3 g4 =>
          have hno : ∀ as, ¬ D (.dict as) := fun as hx => by cases h1 _ hx
          refine .object _ _ ⟨bs, .inr rfl⟩ (fun d hx => hx.elim (fun hx => .inl (h1 d hx)) (fun hx => g2 d hx)) (fun k => ?_)
            (fun k v hv => gathers_congr (g4 k v hv) (fun d => ?_))
          · rw [g3 k]; simp [hno]
          · simp [hno]
        | value _ _ _ h2 => exact absurd trivial h2
    | value _ v h1 h2 h3 h4 =>
      exfalso
      generalize hbb : Doc.dict bs = b at ha
      cases ha _ h3 with
      | left => exact h1 rfl
      | right => cases hbb
      | same => subst hbb; exact h2 trivial
      | objects => exact h2 trivial
    | object _ kvs h1 h2 h3 h4 =>
      obtain ⟨hmn, hmk⟩ := keysOk_dict hm
      obtain ⟨cs, rfl, hc⟩ := mergeDoc_dicts h
      obtain ⟨hget, -⟩ := mergeItems_get bs kvs cs hnd hc
      obtain ⟨as0, ha0⟩ := h1
      refine .object _ _ ⟨as0, .inl ha0⟩ (fun d hx => hx.elim (h2 d) (fun e => .inr (by rw [e]; trivial))) (fun k => ?_) (fun k v hv => ?_)
      · have hk := hget k
        constructor
        · intro hs
          cases hx : dget kvs k with
          | some x =>
            obtain ⟨as, g1, g2⟩ := (h3 k).1 (by rw [hx]; rfl)
            exact ⟨as, .inl g1, g2⟩
          | none =>
            cases hy : dget bs k with
            | some y => exact ⟨bs, .inr rfl, by rw [hy]; rfl⟩
            | none => rw [hx, hy] at hk; rw [map_ok_none hk] at hs; cases hs
        · rintro ⟨as, g1 | g1, g2⟩
          · have := (h3 k).2 ⟨as, g1, g2⟩
            obtain ⟨x, hx⟩ := Option.isSome_iff_exists.1 this
            rw [hx] at hk
            cases hcs : dget cs k with
            | some z => rfl
            | none => rw [hcs] at hk; cases hy : dget bs k <;> rw [hy] at hk <;> cases hk
          · cases g1
            obtain ⟨y, hy⟩ := Option.isSome_iff_exists.1 g2
            rw [hy] at hk
            cases hcs : dget cs k with
            | some z => rfl
            | none => rw [hcs] at hk; cases hx : dget kvs k <;> rw [hx] at hk <;> cases hk
      · have hk := hget k
        rw [hv] at hk
        cases hx : dget kvs k with
        | some x =>
          cases hy : dget bs k with
          | some y =>
            rw [hx, hy] at hk
            have hmz : mergeDoc x y = .ok v := by simp only [mergeOptDoc, Option.map_some, Option.some.injEq] at hk; exact hk.symm
            have := ih _ (mem_of_dget hy) _ x v (hmk k x hx) (hbk k y hy) (h4 k x hx)
              (by rintro d ⟨as, g1, g2⟩; exact agree_inside (ha _ g1) g2 hy) hmz
            refine gathers_congr this (fun d => ?_)
            constructor
            · rintro (⟨as, g1, g2⟩ | rfl)
              · exact ⟨as, .inl g1, g2⟩
              · exact ⟨bs, .inr rfl, hy⟩
            · rintro ⟨as, g1 | g1, g2⟩
              · exact .inl ⟨as, g1, g2⟩
              · cases g1; rw [hy] at g2; cases g2; exact .inr rfl
          | none =>
            rw [hx, hy] at hk
            simp only [mergeOptDoc, Option.map_some, Option.some.injEq, Except.ok.injEq] at hk
            subst hk
            refine gathers_congr (h4 k v hx) (fun d => ?_)
            constructor
            · rintro ⟨as, g1, g2⟩; exact ⟨as, .inl g1, g2⟩
            · rintro ⟨as, g1 | g1, g2⟩
              · exact ⟨as, g1, g2⟩
              · cases g1; rw [hy] at g2; cases g2
        | none =>
          cases hy : dget bs k with
          | none => rw [hx, hy] at hk; cases hk
          | some y =>
            rw [hx, hy] at hk
            simp only [mergeOptDoc, Option.map_some, Option.some.injEq, Except.ok.injEq] at hk
            subst hk
            refine gathers_congr (gathers_one v) (fun d => ?_)
            constructor
            · rintro rfl; exact ⟨bs, .inr rfl, hy⟩
            · rintro ⟨as, g1 | g1, g2⟩
              · have := (h3 k).2 ⟨as, g1, by rw [g2]; rfl⟩
                rw [hx] at this; cases this
              · cases g1; rw [hy] at g2; cases g2; rfl

private theorem gathers_all : ∀ (ds : List Doc) (D : Doc → Prop) (m m' : Doc), KeysOk m → (∀ d ∈ ds, KeysOk d) → Gathers D m →
    (∀ d, D d → ∀ b ∈ ds, Agree d b) → (∀ d ∈ ds, ∀ b ∈ ds, Agree d b) → MergedAll m ds m' → Gathers (fun d => D d ∨ d ∈ ds) m' := by
  intro ds
  induction ds with
  | nil => intro D m m' _ _ hg _ _ h; cases h; exact gathers_congr hg (by simp)
  | cons b ds ih =>
    intro D m m' hm hk hg h1 h2 h
    cases h with
    | step _ _ _ m1 _ hs ht =>
      have g1 := gathers_step b D m m1 hm (hk b (by simp)) hg (fun d hd => h1 d hd b (by simp)) hs
      have := ih _ m1 m' (merge_keysOk b m m1 hm (hk b (by simp)) hs) (fun d hd => hk d (by simp [hd])) g1
        (by
          rintro d (hd | rfl) c hc
          · exact h1 d hd c (by simp [hc])
          · exact h2 d (by simp) c (by simp [hc]))
        (fun d hd c hc => h2 d (by simp [hd]) c (by simp [hc])) ht
      exact gathers_congr this (fun d => by simp [or_assoc])

private theorem same_refl (d : Doc) : SameJson d d := by
  induction d using Doc.ind with
  | h0 => exact .null
  | h1 b => exact .bool b
  | h2 b => exact .int b
  | h3 b => exact .atom b
  | h4 b => exact .str b
  | h5 xs ih =>
    refine .list _ _ rfl (fun i x y hx hy => ?_)
    rw [hx] at hy; cases hy
    exact ih x (List.mem_of_getElem? hx)
  | h6 kvs ih =>
    refine .dict _ _ (fun _ => rfl) (fun k x y hx hy => ?_)
    rw [hx] at hy; cases hy
    exact ih _ (mem_of_dget hx)

private theorem gathers_unique {D : Doc → Prop} {m : Doc} (h : Gathers D m) : ∀ (D' : Doc → Prop) (m' : Doc), Gathers D' m' →
    (∀ d, D d ↔ D' d) → SameJson m m' := by
  induction h with
  | nothing D h1 =>
    intro D' m' h' e
    cases h' with
    | nothing => exact .null
    | value _ _ g1 _ g3 _ => exact absurd (h1 _ ((e _).2 g3)) g1
    | object _ _ g1 => obtain ⟨as, ha⟩ := g1; cases h1 _ ((e _).2 ha)
  | value D v h1 h2 h3 h4 =>
    intro D' m' h' e
    cases h' with
    | nothing _ g1 => exact absurd (g1 _ ((e _).1 h3)) h1
    | value _ _ g1 g2 g3 g4 =>
      rcases g4 _ ((e _).1 h3) with rfl | rfl
      · exact absurd rfl h1
      · exact same_refl _
    | object _ _ _ g2 =>
      rcases g2 _ ((e _).1 h3) with rfl | hd
      · exact absurd rfl h1
      · exact absurd hd h2
  | object D kvs h1 h2 h3 h4 ih =>
    intro D' m' h' e
    obtain ⟨as, ha⟩ := h1
    cases h' with
    | nothing _ g1 => cases g1 _ ((e _).1 ha)
    | value _ _ g1 g2 g3 g4 =>
      rcases h2 _ ((e _).2 g3) with rfl | hd
      · exact absurd rfl g1
      · exact absurd hd g2
    | object _ kvs' g1 g2 g3 g4 =>
      refine .dict _ _ (fun k => ?_) (fun k x y hx hy => ?_)
      · rw [Bool.eq_iff_iff, h3 k, g3 k]; simp [e]
      · exact ih k x hx _ y (g4 k y hy) (fun d => by simp [e])

/-- C162. What submodels that nowhere disagree are merged into holds what all of them give, and nothing else. -/
theorem C162_gathers (subs : List Doc) (hk : ∀ d ∈ subs, KeysOk d) (ha : ∀ a ∈ subs, ∀ b ∈ subs, Agree a b) (m : Doc)
    (h : MergedAll .null subs m) : Gathers (fun d => d ∈ subs) m :=
  gathers_congr (gathers_all subs (fun _ => False) .null m .null hk (.nothing _ (fun _ h => h.elim)) (fun _ h => h.elim) ha h) (by simp)

/-- C162. Submodels that nowhere disagree, merged in whatever order, each once or many times, give the same model, but for
the order of its keys. -/
theorem C162_any_order (subs subs' : List Doc) (hs : ∀ d, d ∈ subs ↔ d ∈ subs') (hk : ∀ d ∈ subs, KeysOk d)
    (ha : ∀ a ∈ subs, ∀ b ∈ subs, Agree a b) (m m' : Doc) (h : MergedAll .null subs m) (h' : MergedAll .null subs' m') : SameJson m m' :=
  gathers_unique (C162_gathers subs hk ha m h) _ m'
    (C162_gathers subs' (fun d hd => hk d ((hs d).2 hd)) (fun a h1 b h2 => ha a ((hs a).2 h1) b ((hs b).2 h2)) m' h') hs

private theorem none_free {d : Doc} (h : ¬ HasNone d) : NoNones d := by
  induction d using Doc.ind with
  | h0 => exact absurd .here h
  | h1 b => exact .bool b
  | h2 b => exact .int b
  | h3 b => exact .atom b
  | h4 b => exact .str b
  | h5 xs ih => exact .list _ (fun x hx => ih x hx (fun hc => h (.list _ _ hx hc)))
  | h6 kvs _ => exact .dict _

private theorem value_mergeable {a b : Doc} (hb : b ≠ .null) (hd : ¬ isDict b) (hn : NoNones b) (ha : ¬ isDict a) (hl : a = b ∨ a = .null) :
    Mergeable a b := by
  cases b with
  | null => exact absurd rfl hb
  | dict _ => exact absurd trivial hd
  | list ys => exact .list _ _ ha hn
  | str s => exact .text _ _ ha
  | bool x => exact .scalar _ _ ha (by rcases hl with rfl | rfl <;> simp) hb hd (by simp)
  | int x => exact .scalar _ _ ha (by rcases hl with rfl | rfl <;> simp) hb hd (by simp)
  | atom x => exact .scalar _ _ ha (by rcases hl with rfl | rfl <;> simp) hb hd (by simp)

private theorem value_defined {D : Doc → Prop} {m b : Doc} (hb : b ≠ .null) (hd : ¬ isDict b) (hn : ¬ HasNone b) (hg : Gathers D m)
    (ha : ∀ d, D d → Agree d b) : Mergeable m b := by
  cases hg with
  | nothing _ h1 => exact value_mergeable hb hd (none_free hn) (by simp [isDict]) (.inr rfl)
  | value _ v h1 h2 h3 h4 =>
    refine value_mergeable hb hd (none_free hn) h2 (.inl ?_)
    cases ha _ h3 with
    | left => exact absurd rfl h1
    | right => exact absurd rfl hb
    | same => rfl
    | objects => exact absurd trivial h2
  | object _ kvs h1 =>
    obtain ⟨as, has⟩ := h1
    have key : ∀ a, Agree a b → isDict a → False := by
      intro a hab hia
      cases hab with
      | left => exact hia
      | right => exact hb rfl
      | same => exact hd hia
      | objects => exact hd trivial
    exact (key _ (ha _ has) trivial).elim

private theorem step_defined (b : Doc) : ∀ (D : Doc → Prop) (m : Doc), Gathers D m → (∀ d, D d → Agree d b) → ¬ HasNone b → Mergeable m b := by
  induction b using Doc.ind with
  | h0 => intro D m _ _ h; exact absurd .here h
  | h1 b => intro D m hg ha hn; exact value_defined (by simp) (by simp [isDict]) hn hg ha
  | h2 b => intro D m hg ha hn; exact value_defined (by simp) (by simp [isDict]) hn hg ha
  | h3 b => intro D m hg ha hn; exact value_defined (by simp) (by simp [isDict]) hn hg ha
  | h4 b => intro D m hg ha hn; exact value_defined (by simp) (by simp [isDict]) hn hg ha
  | h5 b _ => intro D m hg ha hn; exact value_defined (by simp) (by simp [isDict]) hn hg ha
  | h6 bs ih =>
    intro D m hg ha hn
    cases hg with
    | nothing => exact .first _
    | value _ v h1 h2 h3 h4 =>
      exfalso
      generalize hbb : Doc.dict bs = b at ha
      cases ha _ h3 with
      | left => exact h1 rfl
      | right => cases hbb
      | same => subst hbb; exact h2 trivial
      | objects => exact h2 trivial
    | object _ kvs h1 h2 h3 h4 =>
      refine .objects _ _ (fun k x y hx hy => ih _ (mem_of_dget hy) _ x (h4 k x hx) ?_ (fun hc => hn (.dict _ _ _ (mem_of_dget hy) hc)))
      rintro d ⟨as, g1, g2⟩
      exact agree_inside (ha _ g1) g2 hy

private theorem all_defined : ∀ (ds : List Doc) (D : Doc → Prop) (m : Doc), KeysOk m → (∀ d ∈ ds, KeysOk d) → Gathers D m →
    (∀ d, D d → ∀ b ∈ ds, Agree d b) → (∀ d ∈ ds, ∀ b ∈ ds, Agree d b) → (∀ d ∈ ds, ¬ HasNone d) → ∃ m', MergedAll m ds m' := by
  intro ds
  induction ds with
  | nil => intro D m _ _ _ _ _ _; exact ⟨m, .done _⟩
  | cons b ds ih =>
    intro D m hm hk hg h1 h2 hn
    have hb := hk b (by simp)
    obtain ⟨m1, hs⟩ := (merge_defined b m hm hb).2 (step_defined b D m hg (fun d hd => h1 d hd b (by simp)) (hn b (by simp)))
    have g1 := gathers_step b D m m1 hm hb hg (fun d hd => h1 d hd b (by simp)) hs
    obtain ⟨m', h'⟩ := ih _ m1 (merge_keysOk b m m1 hm hb hs) (fun d hd => hk d (by simp [hd])) g1
      (by
        rintro d (hd | rfl) c hc
        · exact h1 d hd c (by simp [hc])
        · exact h2 d (by simp) c (by simp [hc]))
      (fun d hd c hc => h2 d (by simp [hd]) c (by simp [hc])) (fun d hd => hn d (by simp [hd]))
    exact ⟨m', .step _ _ _ _ _ hs h'⟩

/-- C162. Submodels that nowhere disagree and hold no `None` can be merged, so that any two orders of them give models. -/
theorem C162_merged (subs : List Doc) (hk : ∀ d ∈ subs, KeysOk d) (ha : ∀ a ∈ subs, ∀ b ∈ subs, Agree a b)
    (hn : ∀ d ∈ subs, ¬ HasNone d) : ∃ m, MergedAll .null subs m :=
  all_defined subs (fun _ => False) .null .null hk (.nothing _ (fun _ h => h.elim)) (fun _ h => h.elim) ha hn

private theorem same_flip {a b : Doc} (h : SameJson a b) : SameJson b a := by
  induction h with
  | null => exact .null
  | bool b => exact .bool b
  | int i => exact .int i
  | atom t => exact .atom t
  | str s => exact .str s
  | list xs ys h1 _ ih => exact .list _ _ h1.symm (fun i x y hx hy => ih i y x hy hx)
  | dict as bs h1 _ ih => exact .dict _ _ (fun k => (h1 k).symm) (fun k x y hx hy => ih k y x hy hx)

private theorem same_key {as bs : List (Str × Doc)} (h : SameJson (.dict as) (.dict bs)) {k : Str} {x : Doc} (hx : dget as k = some x) :
    ∃ y, dget bs k = some y ∧ SameJson x y := by
  cases h with
  | dict _ _ h1 h2 =>
    have := h1 k
    rw [hx] at this
    obtain ⟨y, hy⟩ := Option.isSome_iff_exists.1 this.symm
    exact ⟨y, hy, h2 k x y hx hy⟩

private theorem same_item {xs ys : List Doc} (h : SameJson (.list xs) (.list ys)) {x : Doc} (hx : x ∈ xs) :
    ∃ y ∈ ys, SameJson x y := by
  cases h with
  | list _ _ h1 h2 =>
    obtain ⟨i, hi, e⟩ := List.getElem_of_mem hx
    have hi' : i < ys.length := h1 ▸ hi
    exact ⟨ys[i], List.getElem_mem hi', h2 i x ys[i] (by rw [List.getElem?_eq_getElem hi, e]) (List.getElem?_eq_getElem hi')⟩

private theorem same_dict {kvs : List (Str × Doc)} {d : Doc} (h : SameJson (.dict kvs) d) : ∃ kvs', d = .dict kvs' := by
  cases h; exact ⟨_, rfl⟩

private theorem same_list {xs : List Doc} {d : Doc} (h : SameJson (.list xs) d) : ∃ ys, d = .list ys := by
  cases h; exact ⟨_, rfl⟩

/-- The keyword is one of a schema whose checks do not look at the order of keys. -/
private def BlindKw (defs : Str → Option CSchema) (kw : CKw) : Prop := ∃ s, OrderBlind defs s ∧ kw ∈ s.kws

private theorem blind_part {defs : Str → Option CSchema} {s t : CSchema} (h : OrderBlind defs s) (hp : PartOfC defs s t) : OrderBlind defs t :=
  fun p hp' => h p (.inside _ _ _ hp hp')

private theorem valid_same (defs : Str → Option CSchema) {s : CSchema} {d : Doc} (h : ValidC defs s d) :
    OrderBlind defs s → ∀ d', SameJson d d' → ValidC defs s d' := by
  refine ValidC.rec (motive_1 := fun s d _ => OrderBlind defs s → ∀ d', SameJson d d' → ValidC defs s d')
    (motive_2 := fun s d _ => OrderBlind defs s → ∀ d', SameJson d d' → InvalidC defs s d')
    (motive_3 := fun kw d _ => BlindKw defs kw → ∀ d', SameJson d d' → HoldsC defs kw d')
    (motive_4 := fun kw d _ => BlindKw defs kw → ∀ d', SameJson d d' → FailsC defs kw d')
    ?_ ?_ ?_ ?_ ?_ ?_ ?_ ?_ ?_ ?_ ?_ ?_ ?_ ?_ ?_ ?_ ?_ ?_ ?_ ?_ ?_ ?_ ?_ ?_ ?_ h
  · intro s d h ih hb d' e; exact .mk _ _ (fun kw hk => ih kw hk ⟨s, hb, hk⟩ d' e)
  · intro s d kw hk hf ih hb d' e; exact .mk _ _ kw hk (ih ⟨s, hb, hk⟩ d' e)
  -- what holds
  · rintro p d h ⟨s, hb, hk⟩ d' e; exact .check _ _ ((hb p (.here _ _ hk) d d' e).symm.trans h)
  · rintro ps d h ih ⟨s, hb, hk⟩ d' e
    refine .properties _ _ (fun kvs k t v hd hm hv => ?_)
    subst hd
    obtain ⟨kvs', rfl⟩ := same_dict (same_flip e)
    obtain ⟨w, hw, hs⟩ := same_key (same_flip e) hv
    exact ih kvs' k t w rfl hm hw (blind_part hb (.property _ _ _ _ hk hm)) v (same_flip hs)
  · rintro sel t d h ih ⟨s, hb, hk⟩ d' e
    refine .keyed _ _ _ (fun kvs k v hd hm hv => ?_)
    subst hd
    obtain ⟨kvs', rfl⟩ := same_dict (same_flip e)
    obtain ⟨w, hw, hs⟩ := same_key (same_flip e) hv
    exact ih kvs' k w rfl hm hw (blind_part hb (.keyed _ _ _ hk)) v (same_flip hs)
  · rintro t d h ih ⟨s, hb, hk⟩ d' e
    refine .items _ _ (fun xs x hd hx => ?_)
    subst hd
    obtain ⟨ys, rfl⟩ := same_list (same_flip e)
    obtain ⟨y, hy, hs⟩ := same_item (same_flip e) hx
    exact ih ys y rfl hy (blind_part hb (.items _ _ hk)) x (same_flip hs)
  · rintro ss d h ih ⟨s, hb, hk⟩ d' e
    exact .allOf _ _ (fun t ht => ih t ht (blind_part hb (.allOf _ _ _ hk ht)) d' e)
  · rintro ss t d ht h ih ⟨s, hb, hk⟩ d' e
    exact .anyOf _ t _ ht (ih (blind_part hb (.anyOf _ _ _ hk ht)) d' e)
  · rintro ss bef t aft d es h h1 h2 ih ih1 ih2 ⟨s, hb, hk⟩ d' e
    refine .oneOf _ bef t aft _ es (ih (blind_part hb (.oneOf _ _ _ hk (by simp [es]))) d' e)
      (fun u hu => ih1 u hu (blind_part hb (.oneOf _ _ _ hk (by simp [es, hu]))) d' e)
      (fun u hu => ih2 u hu (blind_part hb (.oneOf _ _ _ hk (by simp [es, hu]))) d' e)
  · rintro t d h ih ⟨s, hb, hk⟩ d' e; exact .not _ _ (ih (blind_part hb (.not _ _ hk)) d' e)
  · rintro c t u d h1 h2 ih1 ih2 ⟨s, hb, hk⟩ d' e
    exact .thens _ _ _ _ (ih1 (blind_part hb (.cond _ _ _ _ _ hk (.inl rfl))) d' e)
      (ih2 (blind_part hb (.cond _ _ _ _ _ hk (.inr (.inl rfl)))) d' e)
  · rintro c t u d h1 h2 ih1 ih2 ⟨s, hb, hk⟩ d' e
    exact .elses _ _ _ _ (ih1 (blind_part hb (.cond _ _ _ _ _ hk (.inl rfl))) d' e)
      (ih2 (blind_part hb (.cond _ _ _ _ _ hk (.inr (.inr rfl)))) d' e)
  · rintro name t d hd h ih ⟨s, hb, hk⟩ d' e; exact .ref _ _ _ hd (ih (blind_part hb (.ref _ _ _ hk hd)) d' e)
  -- what fails
  · rintro p d h ⟨s, hb, hk⟩ d' e; exact .check _ _ ((hb p (.here _ _ hk) d d' e).symm.trans h)
  · rintro ps kvs k t v hm hv h ih ⟨s, hb, hk⟩ d' e
    obtain ⟨kvs', rfl⟩ := same_dict e
    obtain ⟨w, hw, hs⟩ := same_key e hv
    exact .properties _ _ k t w hm hw (ih (blind_part hb (.property _ _ _ _ hk hm)) w hs)
  · rintro sel t kvs k v hm hv h ih ⟨s, hb, hk⟩ d' e
    obtain ⟨kvs', rfl⟩ := same_dict e
    obtain ⟨w, hw, hs⟩ := same_key e hv
    exact .keyed _ _ _ k w hm hw (ih (blind_part hb (.keyed _ _ _ hk)) w hs)
  · rintro t xs x hx h ih ⟨s, hb, hk⟩ d' e
    obtain ⟨ys, rfl⟩ := same_list e
    obtain ⟨y, hy, hs⟩ := same_item e hx
    exact .items _ _ y hy (ih (blind_part hb (.items _ _ hk)) y hs)
  · rintro ss t d ht h ih ⟨s, hb, hk⟩ d' e
    exact .allOf _ t _ ht (ih (blind_part hb (.allOf _ _ _ hk ht)) d' e)
  · rintro ss d h ih ⟨s, hb, hk⟩ d' e
    exact .anyOf _ _ (fun t ht => ih t ht (blind_part hb (.anyOf _ _ _ hk ht)) d' e)
  · rintro ss d h ih ⟨s, hb, hk⟩ d' e
    exact .noneOf _ _ (fun t ht => ih t ht (blind_part hb (.oneOf _ _ _ hk ht)) d' e)
  · rintro ss l1 t l2 u l3 d es h1 h2 ih1 ih2 ⟨s, hb, hk⟩ d' e
    exact .manyOf _ l1 t l2 u l3 _ es (ih1 (blind_part hb (.oneOf _ _ _ hk (by simp [es]))) d' e)
      (ih2 (blind_part hb (.oneOf _ _ _ hk (by simp [es]))) d' e)
  · rintro t d h ih ⟨s, hb, hk⟩ d' e; exact .not _ _ (ih (blind_part hb (.not _ _ hk)) d' e)
  · rintro c t u d h1 h2 ih1 ih2 ⟨s, hb, hk⟩ d' e
    exact .thens _ _ _ _ (ih1 (blind_part hb (.cond _ _ _ _ _ hk (.inl rfl))) d' e)
      (ih2 (blind_part hb (.cond _ _ _ _ _ hk (.inr (.inl rfl)))) d' e)
  · rintro c t u d h1 h2 ih1 ih2 ⟨s, hb, hk⟩ d' e
    exact .elses _ _ _ _ (ih1 (blind_part hb (.cond _ _ _ _ _ hk (.inl rfl))) d' e)
      (ih2 (blind_part hb (.cond _ _ _ _ _ hk (.inr (.inr rfl)))) d' e)
  · rintro name t d hd h ih ⟨s, hb, hk⟩ d' e; exact .ref _ _ _ hd (ih (blind_part hb (.ref _ _ _ hk hd)) d' e)

private theorem unasked_after (f : VFlags) (hf : ¬ Asked f) (defs : Str → Option CSchema) (n : Nat) (pre : CSchema) (subs : List Doc) :
    subs.map (fun d => (visitC f defs n false pre d).doc) = subs := by
  refine (List.map_congr_left (fun d _ => (C111_verdict_partial f hf defs n false pre d).1)).trans ?_
  simp

/-- C162. Unless the validator is asked for defaults, two builds from submodels that nowhere disagree, added in whatever orders,
give the same model, but for the order of its keys. -/
theorem C162_build (f : VFlags) (hf : ¬ Asked f) (defs : Str → Option CSchema) (n : Nat) (pre post : CSchema) (subs subs' : List Doc)
    (hs : ∀ d, d ∈ subs ↔ d ∈ subs') (hk : ∀ d ∈ subs, KeysOk d) (ha : ∀ a ∈ subs, ∀ b ∈ subs, Agree a b) (m m' : Doc)
    (hb : build (combinedMaker f defs n pre post) subs = .ok m) (hb' : build (combinedMaker f defs n pre post) subs' = .ok m') :
    SameJson m m' := by
  rw [C27_model] at hb hb'
  obtain ⟨_, u, h1, _, _, h3⟩ := hb
  obtain ⟨_, u', h1', _, _, h3'⟩ := hb'
  simp only [combinedMaker, if_true] at h1 h3 h1' h3'
  cases h3
  cases h3'
  rw [unasked_after f hf] at h1 h1'
  have := C162_any_order subs subs' hs hk ha u u' h1 h1'
  simp only [Bool.false_eq_true, if_false, (C111_verdict_partial f hf defs n false post u).1,
    (C111_verdict_partial f hf defs n false post u').1]
  exact this

/-- C162. If a model is built from submodels that nowhere disagree and hold no `None`, by schemas whose checks do not look at the
order of keys, and no argument asks for defaults, it is built from them in any other order too, unless the validation there
ends with an exception such as of endless references. -/
theorem C162_built (f : VFlags) (hf : ¬ Asked f) (defs : Str → Option CSchema) (n : Nat) (pre post : CSchema) (subs subs' : List Doc)
    (hs : ∀ d, d ∈ subs ↔ d ∈ subs') (hk : ∀ d ∈ subs, KeysOk d) (ha : ∀ a ∈ subs, ∀ b ∈ subs, Agree a b)
    (hn : ∀ d ∈ subs, ¬ HasNone d) (ho : OrderBlind defs post)
    (hr : ∀ u, MergedAll .null subs' u → (visitC f defs n false post u).raised = none) (m : Doc)
    (hb : build (combinedMaker f defs n pre post) subs = .ok m) :
    ∃ m', build (combinedMaker f defs n pre post) subs' = .ok m' ∧ SameJson m m' := by
  obtain ⟨u', hu'⟩ := C162_merged subs' (fun d hd => hk d ((hs d).2 hd)) (fun a h1 b h2 => ha a ((hs a).2 h1) b ((hs b).2 h2))
    (fun d hd => hn d ((hs d).2 hd))
  have hb0 := hb
  rw [C27_model] at hb
  obtain ⟨g1, u, h1, h2, h2', h3⟩ := hb
  simp only [combinedMaker, if_true] at h1 h2 h2' h3
  rw [unasked_after f hf] at h1
  have hsame := C162_any_order subs subs' hs hk ha u u' h1 hu'
  have hv := ((C111_verdict_partial f hf defs n false post u).2 h2').1.1 (by simpa using h2)
  have hv' := valid_same defs hv ho u' hsame
  have hr' := hr u' hu'
  have he' := ((C111_verdict_partial f hf defs n false post u').2 hr').1.2 hv'
  have hb' : build (combinedMaker f defs n pre post) subs' = .ok u' := by
    rw [C27_model]
    refine ⟨?_, u', ?_, ?_, ?_, ?_⟩
    · exact fun d hd => g1 d ((hs d).2 hd)
    · simp only [combinedMaker, if_true]; rw [unasked_after f hf]; exact hu'
    · simp [combinedMaker, he']
    · simp [combinedMaker, hr']
    · simp only [combinedMaker, Bool.false_eq_true, if_false, (C111_verdict_partial f hf defs n false post u').1]; exact .done _
  exact ⟨u', hb', C162_build f hf defs n pre post subs subs' hs hk ha m u' hb0 hb'⟩

/-! ### Examples -/

private def engine : Doc := .dict [("fuel".toList, .str "petrol".toList), ("power".toList, .int 90)]

private def car : Doc := .dict [("mass".toList, .int 1200), ("engine".toList, .dict [("power".toList, .int 90)])]

private def extra : Doc := .dict [("engine".toList, engine)]

/-- A decision whether documents nowhere disagree. -/
private def agreeB : Nat → Doc → Doc → Bool
  | 0, _, _ => false
  | _ + 1, .null, _ => true
  | _ + 1, _, .null => true
  | n + 1, .dict as, .dict bs => (dkeys as).all (fun k => match dget as k, dget bs k with
    | some x, some y => agreeB n x y
    | _, _ => true)
  | _ + 1, .int i, .int j => i == j
  | _ + 1, .str s, .str t => s == t
  | _ + 1, _, _ => false

private theorem agreeB_sound : ∀ (n : Nat) (a b : Doc), agreeB n a b = true → Agree a b := by
  intro n
  induction n with
  | zero => intro a b h; simp [agreeB] at h
  | succ n ih =>
    intro a b h
    unfold agreeB at h
    split at h
    · cases h
    · exact .left _
    · exact .right _
    · rename_i n' as bs e
      cases e
      refine .objects _ _ (fun k x y hx hy => ih x y ?_)
      have := List.all_eq_true.1 h k (List.mem_map_of_mem (f := Prod.fst) (mem_of_dget hx))
      rw [hx, hy] at this
      exact this
    · rw [eq_of_beq h]; exact .same _ (by simp [isDict])
    · rw [eq_of_beq h]; exact .same _ (by simp [isDict])
    · cases h

private theorem stack_agree : ∀ a ∈ [car, extra, .null], ∀ b ∈ [car, extra, .null], Agree a b := by
  intro a ha b hb
  simp only [List.mem_cons, List.not_mem_nil, or_false] at ha hb
  rcases ha with rfl | rfl | rfl <;> rcases hb with rfl | rfl | rfl <;> exact agreeB_sound 5 _ _ (by decide +kernel)

private def noAsk : VFlags := ⟨⟨some false, some false, some false, fun _ => false⟩, fun _ => true⟩

private def anySchema : CSchema := .mk [] false none none none none

/-- `{"maximum": 100}` -/
private def upTo100 : Doc → Bool
  | .int i => i ≤ 100
  | _ => true

/-- `{"properties": {"engine": {"properties": {"power": {"maximum": 100}}}}}` -/
private def weak : CSchema :=
  .mk [.properties [("engine".toList,
    .mk [.properties [("power".toList, .mk [.check upTo100] false none none none none)]] false none none none none)]] false none none none none

private theorem weak_blind : OrderBlind (fun _ => none) weak := by
  have key : ∀ s p, CheckIn (fun _ => none) s p →
      s = weak ∨ s = .mk [.properties [("power".toList, .mk [.check upTo100] false none none none none)]] false none none none none ∨
      s = .mk [.check upTo100] false none none none none → p = upTo100 := by
    intro s p h
    induction h with
    | here s p hm => rintro (rfl | rfl | rfl) <;> simp [weak, CSchema.kws] at hm; exact hm
    | inside s t p hp _ ih =>
      rintro (rfl | rfl | rfl) <;> cases hp <;> simp_all [weak, CSchema.kws]
  intro p hp d d' h
  rw [key _ p hp (.inl rfl)]
  cases h <;> rfl

private theorem car_clean : ∀ d ∈ [car, extra], ¬ HasNone d := by
  have key : ∀ d, HasNone d → d ≠ car ∧ d ≠ extra ∧ d ≠ engine ∧ d ≠ .dict [("power".toList, .int 90)] ∧ d ≠ .int 90 ∧ d ≠ .int 1200 ∧
      d ≠ .str "petrol".toList := by
    intro d h
    induction h with
    | here => simp [car, extra, engine]
    | list xs x _ _ _ => simp [car, extra, engine]
    | dict kvs k x hm _ ih =>
      refine ⟨?_, ?_, ?_, ?_, ?_, ?_, ?_⟩ <;> intro e <;> simp only [car, extra, engine, Doc.dict.injEq, reduceCtorEq] at e <;>
        subst e <;> simp_all [engine]
  intro d hd h
  simp only [List.mem_cons, List.not_mem_nil, or_false] at hd
  rcases hd with rfl | rfl
  · exact (key _ h).1 rfl
  · exact (key _ h).2.1 rfl

/-- C162, on an example: the keys are in different orders. -/
example : build (combinedMaker noAsk (fun _ => none) 9 anySchema weak) [car, extra]
    = .ok (.dict [("mass".toList, .int 1200), ("engine".toList, .dict [("power".toList, .int 90), ("fuel".toList, .str "petrol".toList)])]) := rfl

example : build (combinedMaker noAsk (fun _ => none) 9 anySchema weak) [extra, car, extra]
    = .ok (.dict [("engine".toList, .dict [("fuel".toList, .str "petrol".toList), ("power".toList, .int 90)]), ("mass".toList, .int 1200)]) := rfl

example : ¬ Asked noAsk ∧ OrderBlind (fun _ => none) weak ∧ (∀ d ∈ [car, extra], ¬ HasNone d) ∧
    (∀ a ∈ [car, extra], ∀ b ∈ [car, extra], Agree a b) ∧ (∀ d, d ∈ [car, extra] ↔ d ∈ [extra, car, extra]) ∧
    ∀ d ∈ [car, extra], KeysOk d := by
  refine ⟨by simp [Asked, noAsk], weak_blind, car_clean, fun a ha b hb => stack_agree a ?_ b ?_, by simp, ?_⟩
  · simp at ha ⊢; grind
  · simp at hb ⊢; grind
  · intro d hd
    simp only [List.mem_cons, List.not_mem_nil, or_false] at hd
    have e1 : KeysOk (.dict [("power".toList, .int 90)]) := .dict _ (by decide) (by simp; exact .int _)
    have e2 : KeysOk engine := .dict _ (by decide) (by simp; exact ⟨.str _, .int _⟩)
    rcases hd with rfl | rfl
    · exact .dict _ (by decide) (by simp; exact ⟨.int _, e1⟩)
    · exact .dict _ (by decide) (by simp; exact e2)

private def noneAt : Doc := .dict [("a".toList, .null)]

private def oneAt : Doc := .dict [("a".toList, .int 1)]

/-- C162, why there must be no `None`: these nowhere disagree, but with one order of them there is no model. -/
theorem C162_none_matters :
    (∀ a ∈ [noneAt, oneAt], ∀ b ∈ [noneAt, oneAt], Agree a b) ∧
    (∃ m, build (combinedMaker noAsk (fun _ => none) 9 anySchema anySchema) [noneAt, oneAt, noneAt] = .ok m) ∧
    (∃ e, build (combinedMaker noAsk (fun _ => none) 9 anySchema anySchema) [noneAt, noneAt, oneAt] = .error e) := by
  refine ⟨?_, ⟨_, rfl⟩, ⟨_, rfl⟩⟩
  intro a ha b hb
  simp only [List.mem_cons, List.not_mem_nil, or_false] at ha hb
  rcases ha with rfl | rfl <;> rcases hb with rfl | rfl <;> exact agreeB_sound 5 _ _ (by decide +kernel)

/-- C162, why they must nowhere disagree: the one added last decides. -/
example : build (combinedMaker noAsk (fun _ => none) 9 anySchema anySchema) [oneAt, .dict [("a".toList, .int 2)]] = .ok (.dict [("a".toList, .int 2)]) ∧
    build (combinedMaker noAsk (fun _ => none) 9 anySchema anySchema) [.dict [("a".toList, .int 2)], oneAt] = .ok oneAt := ⟨rfl, rfl⟩

end Props
