import Verif.Spec.ErrorsOnce
import Verif.Props.ErrorPaths
import Verif.Lemmas.Pandel
set_option linter.unusedSimpArgs false
/-
C139: nothing is reported twice.
-/
namespace Props
open Py Model Spec

/-! ### The document stays one that Python can have -/

private theorem keysOk_dset {kvs : List (Str × Doc)} (h : KeysOk (.dict kvs)) (k : Str) {v : Doc} (hv : KeysOk v) :
    KeysOk (.dict (dset kvs k v)) := by
  obtain ⟨h1, h2⟩ := keysOk_dict h
  refine keysOk_dict_iff.2 ⟨nodup_dkeys_dset _ _ h1, ?_⟩
  intro k' x hx
  rw [dget_dset] at hx
  split at hx
  · cases hx; exact hv
  · exact h2 _ _ hx

private theorem keysOk_ddel {kvs : List (Str × Doc)} (h : KeysOk (.dict kvs)) (k : Str) : KeysOk (.dict (ddel kvs k)) := by
  cases h with
  | dict _ h1 h2 =>
    refine .dict _ ?_ ?_
    · exact List.Nodup.sublist (List.Sublist.map _ List.filter_sublist) h1
    · intro p hp; exact h2 p (List.mem_filter.1 hp).1

private theorem keysOk_step (f : AutoFlags) {kvs : List (Str × Doc)} (h : KeysOk (.dict kvs)) (p : Str) (s : PSchema)
    (hs : ∀ v, s.default = some v → KeysOk v) : KeysOk (.dict (autoDefaultStep f kvs p s)) := by
  simp only [autoDefaultStep]
  split
  · next d _ hd _ => exact keysOk_dset h p (hs _ hd)
  · generalize (_ && _ && _ : Bool) = b
    cases b
    · exact h
    · exact keysOk_ddel h p

private theorem keysOk_loop (f : AutoFlags) (ps : List (Str × PSchema)) : ∀ kvs : List (Str × Doc), KeysOk (.dict kvs) →
    (∀ p ∈ ps, ∀ v, p.2.default = some v → KeysOk v) → KeysOk (.dict (autoDefaultLoop f kvs ps)) := by
  induction ps with
  | nil => intro kvs h _; exact h
  | cons a t ih =>
    intro kvs h hs
    obtain ⟨p, s⟩ := a
    exact ih _ (keysOk_step f h p s (hs (p, s) (by simp))) (fun q hq => hs q (List.mem_cons_of_mem _ hq))

private theorem keysOk_fill (f : VFlags) (ps : List (Str × VSchema)) (kvs : List (Str × Doc)) (h : KeysOk (.dict kvs))
    (hs : ∀ p ∈ ps, ∀ v, p.2.default = some v → KeysOk v) : KeysOk (.dict (fillProps f ps kvs)) := by
  simp only [fillProps]
  split
  · refine keysOk_loop _ _ _ h ?_
    intro p hp v hv
    obtain ⟨q, hq, rfl⟩ := List.mem_map.1 hp
    refine hs q hq v ?_
    obtain ⟨k, s⟩ := q
    cases s
    exact hv
  · exact h

private theorem keysOk_own (f : VFlags) (ps : List (Str × VSchema)) (ih : ∀ p ∈ ps, ∀ d, KeysOk d → KeysOk (visit f p.2 d).1) :
    ∀ kvs, KeysOk (.dict kvs) → KeysOk (.dict (visitOwn f ps kvs).1) := by
  induction ps with
  | nil => intro kvs h; simpa [visitOwn] using h
  | cons a t iht =>
    obtain ⟨p, s⟩ := a
    intro kvs h
    have iht := iht (fun q hq => ih q (List.mem_cons_of_mem _ hq))
    rw [visitOwn]
    cases hv : dget kvs p with
    | none => exact iht _ h
    | some v => exact iht _ (keysOk_dset h p (ih (p, s) (by simp) v ((keysOk_dict h).2 _ _ hv)))

private theorem keysOk_keys (w : Doc → Doc × List VErr) (ih : ∀ d, KeysOk d → KeysOk (w d).1) (ks : List Str) :
    ∀ kvs, KeysOk (.dict kvs) → KeysOk (.dict (visitKeys w ks kvs).1) := by
  induction ks with
  | nil => intro kvs h; simpa [visitKeys] using h
  | cons p t iht =>
    intro kvs h
    rw [visitKeys]
    cases hv : dget kvs p with
    | none => exact iht _ h
    | some v => exact iht _ (keysOk_dset h p (ih v ((keysOk_dict h).2 _ _ hv)))

private theorem keysOk_kw (f : VFlags) (s : VSchema) (hf : ∀ t, PartOf s t → FromJson t)
    (ih : ∀ t, PartOf s t → ∀ d, KeysOk d → KeysOk (visit f t d).1) (kw : VKw) (hk : kw ∈ s.kws) (d : Doc) (hd : KeysOk d) :
    KeysOk (visitKw f (propNames s.kws) kw d).1 := by
  cases kw with
  | properties ps =>
    cases d with
    | dict kvs =>
      simp only [visitKw]
      exact keysOk_own f ps (fun p hp => ih _ (.property s ps p.1 p.2 hk hp)) _
        (keysOk_fill f ps kvs hd (fun p hp => (hf _ (.property s ps p.1 p.2 hk hp)).default))
    | _ => simpa [visitKw] using hd
  | additionalS u =>
    cases d with
    | dict kvs =>
      simp only [visitKw]
      exact keysOk_keys _ (ih u (.additional s u hk)) _ _ hd
    | _ => simpa [visitKw] using hd
  | items u =>
    cases d with
    | list xs =>
      simp only [visitKw, visitItems_fst]
      refine .list _ ?_
      intro x hx
      obtain ⟨y, hy, rfl⟩ := List.mem_map.1 hx
      cases hd with
      | list _ h => exact ih u (.items s u hk) y (h y hy)
    | _ => simpa [visitKw] using hd
  | _ => rw [kw_same _ _ _ _ (by intro h; cases h)]; exact hd

private theorem keysOk_kws (f : VFlags) (s : VSchema) (hf : ∀ t, PartOf s t → FromJson t)
    (ih : ∀ t, PartOf s t → ∀ d, KeysOk d → KeysOk (visit f t d).1) (t : List VKw) (ht : ∀ k ∈ t, k ∈ s.kws) :
    ∀ d, KeysOk d → KeysOk (visitKws f (propNames s.kws) t d).1 := by
  induction t with
  | nil => intro d hd; simpa [visitKws] using hd
  | cons kw t iht =>
    intro d hd
    simp only [visitKws]
    exact iht (fun k hk => ht k (List.mem_cons_of_mem _ hk)) _ (keysOk_kw f s hf ih kw (ht kw (by simp)) d hd)

private theorem keysOk_visit (f : VFlags) (s : VSchema) (hs : Throughout FromJson s) : ∀ d, KeysOk d → KeysOk (visit f s d).1 := by
  induction s using VSchema.ind with
  | h s ih =>
    intro d hd
    rw [visit_eq]
    exact keysOk_kws f s (fun t w => (hs.inside w).here) (fun t w => ih t w (hs.inside w)) s.kws (fun k hk => hk) d hd

/-! ### Errors of different keywords -/

/-- What the errors of a keyword look like. -/
private inductive Looks (props : List Str) : VKw → VErr → Prop
  | type (ts) : Looks props (.type ts) .wrongType
  | property (ps k e) : k ∈ props → Looks props (.properties ps) (.inside k e)
  | required (ns k) : Looks props (.required ns) (.missing k)
  | additional (b ks) : Looks props (.additional b) (.unexpected ks)
  | additionalS (s k e) : k ∉ props → Looks props (.additionalS s) (.inside k e)
  | name (s k e) : Looks props (.propertyNames s) (.name k e)
  | enum (vs) : Looks props (.enum vs) .notListed
  | items (s i e) : Looks props (.items s) (.item i e)

private theorem looks_same {props : List Str} {a b : VKw} {e e' : VErr} (ha : Looks props a e) (hb : Looks props b e')
    (h : SameError e e') : SameKeyword a b := by
  cases h <;> cases ha <;> cases hb <;> first | constructor | contradiction

private theorem kw_looks (f : VFlags) (s : VSchema) (hs : FromJson s) (hon : Once s.kws) (kw : VKw) (hk : kw ∈ s.kws) (d : Doc) (e : VErr)
    (he : e ∈ (visitKw f (propNames s.kws) kw d).2) : Looks (propNames s.kws) kw e := by
  cases kw with
  | type ts =>
    simp only [visitKw] at he
    split at he
    · cases he
    · simp only [List.mem_singleton] at he; subst he; exact .type _
  | enum ts =>
    simp only [visitKw] at he
    split at he
    · cases he
    · simp only [List.mem_singleton] at he; subst he; exact .enum _
  | required ns =>
    cases d with
    | dict kvs =>
      simp only [visitKw] at he
      obtain ⟨n, _, rfl⟩ := List.mem_map.1 he
      exact .required _ _
    | _ => simp [visitKw] at he
  | additional b =>
    cases d with
    | dict kvs =>
      simp only [visitKw] at he
      split at he
      · cases he
      · simp only [List.mem_singleton] at he; subst he; exact .additional _ _
    | _ => simp [visitKw] at he
  | propertyNames u =>
    cases d with
    | dict kvs =>
      simp only [visitKw] at he
      obtain ⟨k, _, he⟩ := List.mem_flatMap.1 he
      obtain ⟨e', _, rfl⟩ := List.mem_map.1 he
      exact .name _ _ _
    | _ => simp [visitKw] at he
  | properties ps =>
    cases d with
    | dict kvs =>
      simp only [visitKw] at he
      obtain ⟨k, u, v, e', hm, hv, he', rfl⟩ := (own_mem f ps e _ (hs.properties ps hk)).1 he
      refine .property _ _ _ ?_
      rw [propNames_eq, propsOf_mem hon hk]
      exact List.mem_map.2 ⟨_, hm, rfl⟩
    | _ => simp [visitKw] at he
  | additionalS u =>
    cases d with
    | dict kvs =>
      simp only [visitKw] at he
      obtain ⟨k, v, e', hm, hv, he', rfl⟩ := (keys_mem _ _ e _ (extraKeys_nodup ..)).1 he
      exact .additionalS _ _ _ ((mem_extraKeys ..).1 hm).2
    | _ => simp [visitKw] at he
  | items u =>
    cases d with
    | list xs =>
      simp only [visitKw] at he
      obtain ⟨j, x, e', hj, he', rfl⟩ := (items_mem _ _ e 0).1 he
      exact .items _ _ _
    | _ => simp [visitKw] at he

/-! ### Errors of one keyword -/

/-- No two say the same. -/
private abbrev Differ (l : List VErr) : Prop := l.Pairwise (fun a b => ¬ SameError a b)

private theorem differ_map {l : List VErr} (g : VErr → VErr) (hg : ∀ a b, SameError (g a) (g b) → SameError a b) (h : Differ l) :
    Differ (l.map g) := by
  refine List.pairwise_map.2 (h.imp ?_)
  intro a b hab hs
  exact hab (hg a b hs)

private theorem own_differ (f : VFlags) (ps : List (Str × VSchema)) (ih : ∀ p ∈ ps, ∀ d, KeysOk d → Differ (visit f p.2 d).2)
    (ik : ∀ p ∈ ps, ∀ d, KeysOk d → KeysOk (visit f p.2 d).1) :
    ∀ kvs, (dkeys ps).Nodup → KeysOk (.dict kvs) → Differ (visitOwn f ps kvs).2 := by
  induction ps with
  | nil => intro kvs _ _; simp [visitOwn]
  | cons a t iht =>
    obtain ⟨p, s⟩ := a
    intro kvs hnd hk
    simp only [dkeys, List.map_cons, List.nodup_cons] at hnd
    have iht := iht (fun q hq => ih q (List.mem_cons_of_mem _ hq)) (fun q hq => ik q (List.mem_cons_of_mem _ hq))
    rw [visitOwn]
    cases hv : dget kvs p with
    | none => exact iht _ hnd.2 hk
    | some v =>
      have hvk := (keysOk_dict hk).2 _ _ hv
      refine List.pairwise_append.2 ⟨differ_map _ ?_ (ih (p, s) (by simp) v hvk),
        iht _ hnd.2 (keysOk_dset hk p (ik (p, s) (by simp) v hvk)), ?_⟩
      · intro a b h; cases h; assumption
      · intro a ha b hb hs
        obtain ⟨a', _, rfl⟩ := List.mem_map.1 ha
        obtain ⟨k, u, w, b', hm, _, _, rfl⟩ := (own_mem f t b _ hnd.2).1 hb
        cases hs
        exact hnd.1 (List.mem_map.2 ⟨_, hm, rfl⟩)

private theorem keys_differ (w : Doc → Doc × List VErr) (ih : ∀ d, KeysOk d → Differ (w d).2) (ik : ∀ d, KeysOk d → KeysOk (w d).1)
    (ks : List Str) : ∀ kvs, ks.Nodup → KeysOk (.dict kvs) → Differ (visitKeys w ks kvs).2 := by
  induction ks with
  | nil => intro kvs _ _; simp [visitKeys]
  | cons p t iht =>
    intro kvs hnd hk
    simp only [List.nodup_cons] at hnd
    rw [visitKeys]
    cases hv : dget kvs p with
    | none => exact iht _ hnd.2 hk
    | some v =>
      have hvk := (keysOk_dict hk).2 _ _ hv
      refine List.pairwise_append.2 ⟨differ_map _ ?_ (ih v hvk), iht _ hnd.2 (keysOk_dset hk p (ik v hvk)), ?_⟩
      · intro a b h; cases h; assumption
      · intro a ha b hb hs
        obtain ⟨a', _, rfl⟩ := List.mem_map.1 ha
        obtain ⟨k, x, b', hm, _, _, rfl⟩ := (keys_mem w t b _ hnd.2).1 hb
        cases hs
        exact hnd.1 hm

private theorem items_differ (w : Doc → Doc × List VErr) (ih : ∀ d, KeysOk d → Differ (w d).2) (xs : List Doc) :
    ∀ i, (∀ x ∈ xs, KeysOk x) → Differ (visitItems w i xs).2 := by
  induction xs with
  | nil => intro i _; simp [visitItems]
  | cons x xs iht =>
    intro i hk
    simp only [visitItems]
    refine List.pairwise_append.2 ⟨differ_map _ ?_ (ih x (hk x (by simp))), iht _ (fun y hy => hk y (List.mem_cons_of_mem _ hy)), ?_⟩
    · intro a b h; cases h; assumption
    · intro a ha b hb hs
      obtain ⟨a', _, rfl⟩ := List.mem_map.1 ha
      obtain ⟨j, y, b', _, _, rfl⟩ := (items_mem w xs b _).1 hb
      generalize hi : i + 1 + j = n at hs
      cases hs
      omega

private theorem names_differ (g : Str → List VErr) (ih : ∀ k, Differ (g k)) (ks : List Str) (hnd : ks.Nodup) :
    Differ (ks.flatMap (fun k => (g k).map (.name k))) := by
  induction ks with
  | nil => simp
  | cons k t iht =>
    simp only [List.nodup_cons] at hnd
    simp only [List.flatMap_cons]
    refine List.pairwise_append.2 ⟨differ_map _ ?_ (ih k), iht hnd.2, ?_⟩
    · intro a b h; cases h; assumption
    · intro a ha b hb hs
      obtain ⟨a', _, rfl⟩ := List.mem_map.1 ha
      obtain ⟨k', hk', hb⟩ := List.mem_flatMap.1 hb
      obtain ⟨b', _, rfl⟩ := List.mem_map.1 hb
      cases hs
      exact hnd.1 hk'

private theorem kw_differ (f : VFlags) (s : VSchema) (hs : FromJson s) (hf : ∀ t, PartOf s t → FromJson t)
    (ih : ∀ t, PartOf s t → ∀ d, KeysOk d → Differ (visit f t d).2)
    (ik : ∀ t, PartOf s t → ∀ d, KeysOk d → KeysOk (visit f t d).1) (kw : VKw) (hk : kw ∈ s.kws) (d : Doc) (hd : KeysOk d) :
    Differ (visitKw f (propNames s.kws) kw d).2 := by
  cases kw with
  | type ts => simp only [visitKw]; split <;> simp
  | enum ts => simp only [visitKw]; split <;> simp
  | required ns =>
    cases d with
    | dict kvs =>
      simp only [visitKw]
      refine List.pairwise_map.2 (List.Pairwise.imp ?_ (List.Nodup.sublist List.filter_sublist (hs.required ns hk)))
      intro a b hab h
      cases h
      exact hab rfl
    | _ => simp [visitKw]
  | additional b =>
    cases d with
    | dict kvs => simp only [visitKw]; split <;> simp
    | _ => simp [visitKw]
  | propertyNames u =>
    cases d with
    | dict kvs =>
      simp only [visitKw]
      exact names_differ _ (fun k => ih u (.names s u hk) (.str k) (.str k)) _ (keysOk_dict hd).1
    | _ => simp [visitKw]
  | properties ps =>
    cases d with
    | dict kvs =>
      simp only [visitKw]
      exact own_differ f ps (fun p hp => ih _ (.property s ps p.1 p.2 hk hp)) (fun p hp => ik _ (.property s ps p.1 p.2 hk hp)) _
        (hs.properties ps hk) (keysOk_fill f ps kvs hd (fun p hp => (hf _ (.property s ps p.1 p.2 hk hp)).default))
    | _ => simp [visitKw]
  | additionalS u =>
    cases d with
    | dict kvs =>
      simp only [visitKw]
      exact keys_differ _ (ih u (.additional s u hk)) (ik u (.additional s u hk)) _ _ (extraKeys_nodup ..) hd
    | _ => simp [visitKw]
  | items u =>
    cases d with
    | list xs =>
      simp only [visitKw]
      cases hd with
      | list _ h => exact items_differ _ (ih u (.items s u hk)) xs 0 h
    | _ => simp [visitKw]

/-! ### The whole -/

private theorem once_of {s : VSchema} (h : s.kws.Pairwise (fun a b => ¬ SameKeyword a b)) : Once s.kws := by
  refine h.imp ?_
  intro a b hab hx
  rcases hx with ⟨_, _, rfl, rfl⟩ | ⟨_, _, rfl, rfl⟩ | ⟨_, _, rfl, rfl⟩ <;> exact hab (by constructor)

/-- C139: no two of the errors that are reported say the same of the same place, when no schema has a keyword or a name twice. -/
theorem C139_once (f : VFlags) (s : VSchema) (hs : Throughout FromJson s) (d : Doc) (hd : KeysOk d) :
    (visit f s d).2.Pairwise (fun a b => ¬ SameError a b) := by
  induction s using VSchema.ind generalizing d with
  | h s ih =>
    have hw := fun t (w : PartOf s t) d hd => ih t w (hs.inside w) d hd
    have hk := fun t (w : PartOf s t) => keysOk_visit f t (hs.inside w)
    have hf := fun t (w : PartOf s t) => (hs.inside w).here
    have hon := once_of hs.here.keywords
    have key : ∀ (t : List VKw), (∀ k ∈ t, k ∈ s.kws) → t.Pairwise (fun a b => ¬ SameKeyword a b) → ∀ d, KeysOk d →
        Differ (visitKws f (propNames s.kws) t d).2 ∧
        ∀ e ∈ (visitKws f (propNames s.kws) t d).2, ∃ kw ∈ t, Looks (propNames s.kws) kw e := by
      intro t
      induction t with
      | nil => intro _ _ d _; simp [visitKws]
      | cons kw t iht =>
        intro hm hp d hd
        have hmk := hm kw (by simp)
        obtain ⟨h1, h2⟩ := iht (fun k hk => hm k (List.mem_cons_of_mem _ hk)) (List.pairwise_cons.1 hp).2 _
          (keysOk_kw f s hf hk kw hmk d hd)
        have h3 := kw_looks f s hs.here hon kw hmk d
        simp only [visitKws]
        refine ⟨List.pairwise_append.2 ⟨kw_differ f s hs.here hf hw hk kw hmk d hd, h1, ?_⟩, ?_⟩
        · intro a ha b hb hab
          obtain ⟨kw', hk', hl⟩ := h2 b hb
          exact (List.pairwise_cons.1 hp).1 kw' hk' (looks_same (h3 a ha) hl hab)
        · intro e he
          rcases List.mem_append.1 he with he | he
          · exact ⟨kw, by simp, h3 e he⟩
          · obtain ⟨kw', hk', hl⟩ := h2 e he
            exact ⟨kw', List.mem_cons_of_mem _ hk', hl⟩
    rw [visit_eq]
    exact (key s.kws (fun k hk => hk) hs.here.keywords d hd).1

/-! #### Cases -/

private theorem pet_json : Throughout FromJson petSchema := by
  refine full_all ⟨?_, ?_, ?_, ?_⟩ ?_ ?_ ?_
  · simp only [petSchema, petLeaf, VSchema.kws, List.pairwise_cons, List.mem_cons, List.not_mem_nil, or_false,
      forall_eq_or_imp, forall_eq]
    refine ⟨⟨?_, ?_, ?_, ?_⟩, ⟨?_, ?_, ?_⟩, ⟨?_, ?_⟩, ?_, ?_, .nil⟩ <;> first | (intro h; cases h; done) | (intro b hb; cases hb)
  · intro ps hp
    simp [petSchema, petLeaf, VSchema.kws] at hp
    subst hp; decide
  · intro ns hp
    simp [petSchema, petLeaf, VSchema.kws] at hp
    subst hp; decide
  · intro v hv; cases hv
  · intro ts d hd
    refine ⟨by simp [petLeaf, VSchema.kws], by simp [petLeaf, VSchema.kws], by simp [petLeaf, VSchema.kws], ?_⟩
    intro v hv
    rcases hd with rfl | rfl <;> cases hv
    exact .int 1
  all_goals (intros; exact ⟨by simp [petLeaf, VSchema.kws], by simp [petLeaf, VSchema.kws], by simp [petLeaf, VSchema.kws],
    fun v hv => by cases hv⟩)

/-- `{"c": [5, 5], "b": 7, "d": []}`: four errors, two of them alike but for their places. -/
private def worse : Doc := .dict [("c".toList, .list [.int 5, .int 5]), ("b".toList, .int 7), ("d".toList, .list [])]

private theorem worse_ok : KeysOk worse := by
  refine .dict _ (by decide) ?_
  intro p hp
  simp at hp
  rcases hp with rfl | rfl | rfl
  · exact .list _ (by simp; exact .int 5)
  · exact .int 7
  · exact .list _ (by simp)

example : (visit petFlags petSchema worse).2 = [.inside "b".toList .wrongType, .inside "c".toList (.item 0 .wrongType),
    .inside "c".toList (.item 1 .wrongType), .name "d".toList .notListed] := by rfl
example : (visit petFlags petSchema worse).2.Pairwise (fun a b => ¬ SameError a b) :=
  C139_once petFlags petSchema pet_json worse worse_ok

end Props
