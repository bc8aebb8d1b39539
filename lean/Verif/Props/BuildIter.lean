import Verif.Spec.BuildIter
import Verif.Props.MakerHistory
/-
C126: an unfinished build does no harm to later ones.
-/
namespace Props
open Py Model Spec

variable {I V : Type}

/-- What holds of the last iteration begun. -/
private structure Going (a : Attrs) (g : Gen I) (es : List (BuildErr V)) : Prop where
  flag : a.errored = some (!es.isEmpty)
  form : (es = [] ∧ g = .over) ∨ ∃ k fs, 1 ≤ k ∧ k ≤ 4 ∧ fs ≠ [] ∧ ErrorsOf k fs ∧ (k = 1 → a.model = .null) ∧
    ((es = fs ∧ ((∃ j it, g = .inSubmodel j it ∧ k = 1) ∨ (∃ it, g = .inModel it ∧ k = 3) ∨ g = .afterRaise k)) ∨
     (es = fs ++ [.gaveUp k] ∧ (g = .gaveUp ∨ g = .over)))

private theorem raised_going (s : Attrs) (k : Nat) (h1 : 1 ≤ k) (h4 : k ≤ 4) (e : PyErr) (fs : List (BuildErr V)) (hf : ErrorsOf k fs)
    (hm : k = 1 → s.model = .null) :
    let r : Advanced I V := stepRaised s k e
    Going r.attrs r.gen (fs ++ r.out.toList) := by
  have hr : ErrorsOf k (fs ++ [if e = .validationError then (.invalid k : BuildErr V) else .failed k e]) := by
    intro x hx
    rcases List.mem_append.1 hx with hx | hx
    · exact hf x hx
    · have := List.mem_singleton.1 hx
      subst this
      split <;> simp [stepOf, isGaveUp]
  refine ⟨by simp [stepRaised], .inr ⟨k, _, h1, h4, by simp, hr, hm, .inl ⟨rfl, .inr (.inr rfl)⟩⟩⟩

private theorem found_going (s : Attrs) (k : Nat) (h1 : 1 ≤ k) (h4 : k ≤ 4) (v : V) (g : Gen I) (fs : List (BuildErr V)) (hf : ErrorsOf k fs)
    (hm : k = 1 → s.model = .null) (hg : (∃ j it, g = .inSubmodel j it ∧ k = 1) ∨ (∃ it, g = .inModel it ∧ k = 3)) :
    Going { s with errored := some true } g (fs ++ [.found k v]) := by
  have hr : ErrorsOf k (fs ++ [.found k v]) := by
    intro x hx
    rcases List.mem_append.1 hx with hx | hx
    · exact hf x hx
    · have := List.mem_singleton.1 hx
      subst this
      simp [stepOf, isGaveUp]
  refine ⟨by simp, .inr ⟨k, _, h1, h4, by simp, hr, hm, .inl ⟨rfl, ?_⟩⟩⟩
  rcases hg with h | h
  · exact .inl h
  · exact .inr (.inl h)

private theorem nothing (k : Nat) : ErrorsOf k ([] : List (BuildErr V)) := by intro e he; cases he

private theorem gaveUp_going (s : Attrs) (k : Nat) (h1 : 1 ≤ k) (h4 : k ≤ 4) (fs : List (BuildErr V)) (hn : fs ≠ []) (hf : ErrorsOf k fs)
    (hm : k = 1 → s.model = .null) (hs : s.errored = some true) (next : Attrs → Advanced I V) :
    Going (afterStep s k next).attrs (afterStep s k next).gen (fs ++ (afterStep s k next).out.toList) := by
  unfold afterStep
  rw [if_pos hs]
  exact ⟨by simp [hs], .inr ⟨k, fs, h1, h4, hn, hf, hm, .inr ⟨rfl, .inl rfl⟩⟩⟩

private theorem curate_going (mk : IterMaker I V) (s : Attrs) (hs : s.errored = some false) :
    Going (fromCurate mk s).attrs (fromCurate mk s).gen (fromCurate mk s).out.toList := by
  unfold fromCurate
  split
  · exact raised_going _ 4 (by omega) (by omega) _ [] (nothing 4) (by omega)
  · unfold afterStep
    rw [if_neg (by simp [hs])]
    exact ⟨by simp [hs], .inl ⟨rfl, rfl⟩⟩

private theorem model_going (mk : IterMaker I V) (s : Attrs) (it : I) (hs : s.errored = some false) :
    Going (fromModel mk s it).attrs (fromModel mk s it).gen (fromModel mk s it).out.toList := by
  unfold fromModel
  split
  · unfold afterStep
    rw [if_neg (by simp [hs])]
    exact curate_going mk _ hs
  · exact raised_going _ 3 (by omega) (by omega) _ [] (nothing 3) (by omega)
  · rename_i h v it' e
    exact found_going { s with heap := h } 3 (by omega) (by omega) v _ [] (nothing 3) (by omega) (.inr ⟨it', rfl, rfl⟩)

private theorem merge_going (mk : IterMaker I V) (fuel : Nat) (s : Attrs) (hs : s.errored = some false) :
    Going (fromMerge mk fuel s).attrs (fromMerge mk fuel s).gen (fromMerge mk fuel s).out.toList := by
  unfold fromMerge
  split
  · exact raised_going _ 2 (by omega) (by omega) _ [] (nothing 2) (by omega)
  · unfold afterStep
    rw [if_neg (by simp [hs])]
    exact model_going mk _ _ hs

private theorem subs_going (mk : IterMaker I V) (fuel : Nat) : ∀ (vs : List Val) (k : Nat) (s : Attrs) (fs : List (BuildErr V)),
    s.errored = some (!fs.isEmpty) → s.model = .null → ErrorsOf 1 fs →
    Going (fromSubmodels mk fuel s k vs).attrs (fromSubmodels mk fuel s k vs).gen (fs ++ (fromSubmodels mk fuel s k vs).out.toList)
  | [], k, s, fs, hs, hm, hf => by
    simp only [fromSubmodels]
    by_cases hn : fs = []
    · subst hn
      have hs' : s.errored = some false := hs
      simp only [afterStep, hs', Option.some.injEq, Bool.false_eq_true, if_false, List.nil_append]
      exact merge_going mk fuel s hs'
    · exact gaveUp_going s 1 (by omega) (by omega) fs hn hf (fun _ => hm) (by rw [hs]; cases fs <;> simp_all) _
  | v :: vs, k, s, fs, hs, hm, hf => by
    simp only [fromSubmodels]
    split
    · exact subs_going mk fuel vs (k + 1) _ fs hs hm hf
    · exact raised_going _ 1 (by omega) (by omega) _ fs hf (fun _ => hm)
    · rename_i h x it' e
      exact found_going { s with heap := h } 1 (by omega) (by omega) x _ fs hf (fun _ => hm) (.inl ⟨k, it', rfl, rfl⟩)

private theorem start_going (mk : IterMaker I V) (fuel : Nat) (s : Attrs) :
    Going (genStart mk fuel s).attrs (genStart mk fuel s).gen (genStart mk fuel s).out.toList := by
  have := subs_going mk fuel s.subs 0 { s with errored := some false, model := .null } [] rfl rfl (nothing 1)
  simpa [genStart] using this

private theorem next_going (mk : IterMaker I V) (fuel : Nat) (a : Attrs) (g : Gen I) (es : List (BuildErr V)) (h : Going a g es) :
    Going (genNext mk fuel a g).attrs (genNext mk fuel a g).gen (es ++ (genNext mk fuel a g).out.toList) := by
  obtain ⟨hflag, hform⟩ := h
  rcases hform with ⟨rfl, rfl⟩ | ⟨k, fs, h1, h4, hn, hf, hm, hend⟩
  · exact ⟨hflag, .inl ⟨rfl, rfl⟩⟩
  · rcases hend with ⟨rfl, hg⟩ | ⟨rfl, hg⟩
    · have htrue : a.errored = some true := by rw [hflag]; cases es <;> simp_all
      rcases hg with ⟨j, it, rfl, rfl⟩ | ⟨it, rfl, rfl⟩ | rfl
      · simp only [genNext]
        split
        · exact subs_going mk fuel _ _ _ es hflag (hm rfl) hf
        · exact raised_going _ 1 h1 h4 _ es hf hm
        · rename_i h x it' e
          exact found_going { a with heap := h } 1 h1 h4 x _ es hf hm (.inl ⟨j, it', rfl, rfl⟩)
      · simp only [genNext, fromModel]
        split
        · rename_i h e
          exact gaveUp_going { a with heap := h } 3 h1 h4 es hn hf (by omega) htrue _
        · exact raised_going _ 3 h1 h4 _ es hf (by omega)
        · rename_i h x it' e
          exact found_going { a with heap := h } 3 h1 h4 x _ es hf (by omega) (.inr ⟨it', rfl, rfl⟩)
      · have hk : k = 1 ∨ k = 2 ∨ k = 3 ∨ k = 4 := by omega
        rcases hk with rfl | rfl | rfl | rfl
        · exact gaveUp_going a 1 h1 h4 es hn hf hm htrue _
        · exact gaveUp_going a 2 h1 h4 es hn hf hm htrue _
        · exact gaveUp_going a 3 h1 h4 es hn hf hm htrue _
        · exact gaveUp_going a 4 h1 h4 es hn hf hm htrue _
    · have : genNext mk fuel a g = ⟨a, .over, none⟩ := by rcases hg with rfl | rfl <;> rfl
      rw [this]
      refine ⟨by simpa using hflag, .inr ⟨k, fs, h1, h4, hn, hf, hm, .inr ⟨by simp, .inr rfl⟩⟩⟩

private theorem run_going (mk : IterMaker I V) (fuel : Nat) : ∀ (ops : List IterOp) (s : IterState I V),
    (Going s.attrs s.gen s.reported ∨ .begin ∈ ops) →
    Going (iterRun mk fuel s ops).attrs (iterRun mk fuel s ops).gen (iterRun mk fuel s ops).reported
  | [], s, h => by
    rcases h with h | h
    · exact h
    · cases h
  | op :: ops, s, h => by
    refine run_going mk fuel ops (iterStep mk fuel s op) ?_
    by_cases hop : op = .begin
    · subst hop; exact .inl (start_going mk fuel s.attrs)
    · rcases h with h | h
      · left
        cases op with
        | new o => exact ⟨h.flag, h.form⟩
        | add v => exact ⟨h.flag, h.form⟩
        | begin => exact absurd rfl hop
        | next => exact next_going mk fuel _ _ _ h
      · cases h with
        | head => exact absurd rfl hop
        | tail _ h => exact .inr h

/-- C126: however builds were begun, advanced and abandoned, the flag `_errored` says whether the last one has reported any error. -/
theorem C126_flag (mk : IterMaker I V) (fuel : Nat) (s : IterState I V) (ops : List IterOp) (hb : .begin ∈ ops) :
    (iterRun mk fuel s ops).attrs.errored = some (!(iterRun mk fuel s ops).reported.isEmpty) :=
  (run_going mk fuel ops s (.inr hb)).flag

/-- C126: at any time the last build has reported nothing and is over; or errors of one step only, so that no later step was begun (if they
are of the first step, there is no model), with a note at the end that it gave up, without which it is not over. -/
theorem C126_reports (mk : IterMaker I V) (fuel : Nat) (s : IterState I V) (ops : List IterOp) (hb : .begin ∈ ops) :
    let r := iterRun mk fuel s ops
    (r.reported = [] ∧ r.gen = .over) ∨
    ∃ k es, 1 ≤ k ∧ k ≤ 4 ∧ es ≠ [] ∧ ErrorsOf k es ∧ (k = 1 → r.attrs.model = .null) ∧
      ((r.reported = es ∧ r.gen ≠ .over) ∨ r.reported = es ++ [.gaveUp k]) := by
  rcases (run_going mk fuel ops s (.inr hb)).form with h | ⟨k, es, h1, h4, hn, hf, hm, h⟩
  · exact .inl h
  · refine .inr ⟨k, es, h1, h4, hn, hf, hm, ?_⟩
    rcases h with ⟨he, hg⟩ | ⟨he, _⟩
    · refine .inl ⟨he, ?_⟩
      intro ho
      rw [ho] at hg
      rcases hg with ⟨_, _, h, _⟩ | ⟨_, h, _⟩ | h <;> cases h
    · exact .inr he

private theorem run_append (mk : IterMaker I V) (fuel : Nat) (b : List IterOp) : ∀ (a : List IterOp) (s : IterState I V),
    iterRun mk fuel s (a ++ b) = iterRun mk fuel (iterRun mk fuel s a) b
  | [], _ => rfl
  | op :: a, s => run_append mk fuel b a (iterStep mk fuel s op)

/-- C126: what a build that begins now does, and all that is done after, depends only on the objects and the submodels that are there: not on
the model and the flag that former builds left, nor on where these were abandoned. -/
theorem C126_later (mk : IterMaker I V) (fuel : Nat) (s s' : IterState I V) (hh : s.attrs.heap = s'.attrs.heap)
    (hs : s.attrs.subs = s'.attrs.subs) (ops : List IterOp) :
    iterRun mk fuel s (.begin :: ops) = iterRun mk fuel s' (.begin :: ops) := by
  have : genStart mk fuel s.attrs = genStart mk fuel s'.attrs := by simp only [genStart, hh, hs]
  simp only [iterRun, iterStep, this]

/-! ### The objects that were there -/

private theorem mergeLoop_eq (fuel : Nat) : ∀ (vs : List Val) (h : Heap) (m : Val),
    (mergeLoop fuel h m vs).1 = (mergeAllH fuel h m vs).1 ∧ (mergeLoop fuel h m vs).2.1 = (mergeAllH fuel h m vs).2.1
  | [], _, _ => ⟨rfl, rfl⟩
  | v :: vs, h, m => by
    simp only [mergeLoop, mergeAllH]
    split
    · rename_i e; rw [e]; exact ⟨rfl, rfl⟩
    · rename_i e; rw [e]; exact mergeLoop_eq fuel vs _ _

private theorem curateLoop_kept {n : Nat} : ∀ (cs : List (Heap → Val → Heap × Val × Option PyErr)) (h : Heap) (m : Val),
    (∀ c ∈ cs, ∀ h v, n ≤ h.length → NewTo n v → Kept n h (c h v).1 ∧ n ≤ (c h v).1.length ∧ NewTo n (c h v).2.1) →
    n ≤ h.length → NewTo n m → Kept n h (curateLoop h m cs).1 ∧ n ≤ (curateLoop h m cs).1.length
  | [], h, _, _, hn, _ => ⟨Kept.refl _ _, hn⟩
  | c :: cs, h, m, hc, hn, hm => by
    obtain ⟨k1, k2, k3⟩ := hc c (by simp) h m hn hm
    unfold curateLoop
    split
    · rename_i he
      rw [he] at k1 k2
      exact ⟨k1, k2⟩
    · rename_i h1 m1 he
      rw [he] at k1 k2 k3
      obtain ⟨i1, i2⟩ := curateLoop_kept cs h1 m1 (fun c h => hc c (by simp [h])) k2 k3
      exact ⟨k1.trans i1, i2⟩

/-- The first `n` objects are as on `h`, and the submodels are `subs`. -/
private structure Same (n : Nat) (h : Heap) (subs : List Val) (s : Attrs) : Prop where
  kept : Kept n h s.heap
  long : n ≤ s.heap.length
  subs : s.subs = subs

private theorem Same.advance {mk : IterMaker I V} (hc : CarefulIter mk) {n : Nat} {h : Heap} {subs : List Val} {s : Attrs}
    (hs : Same n h subs s) (it : I) : Same n h subs { s with heap := (mk.advance s.heap it).1 } :=
  ⟨hs.kept.trans ((hc.advance s.heap it).1.mono hs.long), Nat.le_trans hs.long (hc.advance s.heap it).2, hs.subs⟩

private theorem raised_same {n : Nat} {h : Heap} {subs : List Val} {s : Attrs} (hs : Same n h subs s) (k : Nat) (e : PyErr) :
    Same n h subs (stepRaised s k e : Advanced I V).attrs := ⟨hs.kept, hs.long, hs.subs⟩

private theorem after_same {n : Nat} {h : Heap} {subs : List Val} {s : Attrs} (hs : Same n h subs s) (k : Nat) (next : Attrs → Advanced I V)
    (hn : s.errored ≠ some true → Same n h subs (next s).attrs) : Same n h subs (afterStep s k next).attrs := by
  unfold afterStep
  split
  · exact hs
  · rename_i hne; exact hn hne

private theorem curate_same {mk : IterMaker I V} (hc : CarefulIter mk) {n : Nat} {h : Heap} {subs : List Val} {s : Attrs}
    (hs : Same n h subs s) (hm : NewTo n s.model) : Same n h subs (fromCurate mk s).attrs := by
  have hk := curateLoop_kept mk.curators s.heap s.model (hc.curators n) hs.long hm
  unfold fromCurate
  split
  · rename_i h' m e he
    rw [he] at hk
    exact raised_same (s := { s with heap := h', model := m }) ⟨hs.kept.trans hk.1, hk.2, hs.subs⟩ _ _
  · rename_i h' m he
    rw [he] at hk
    refine after_same (s := { s with heap := h', model := m }) ⟨hs.kept.trans hk.1, hk.2, hs.subs⟩ _ _ (fun _ => ?_)
    exact ⟨hs.kept.trans hk.1, hk.2, hs.subs⟩

private theorem model_same {mk : IterMaker I V} (hc : CarefulIter mk) {n : Nat} {h : Heap} {subs : List Val} {s : Attrs}
    (hs : Same n h subs s) (hm : s.errored ≠ some true → NewTo n s.model) (it : I) : Same n h subs (fromModel mk s it).attrs := by
  have ha := hs.advance hc it
  unfold fromModel
  split
  · rename_i h' e
    rw [e] at ha
    exact after_same ha _ _ (fun hne => curate_same hc ha (hm hne))
  · rename_i h' x e
    rw [e] at ha
    exact raised_same ha _ _
  · rename_i h' v it' e
    rw [e] at ha
    exact ⟨ha.kept, ha.long, ha.subs⟩

private theorem merge_same {mk : IterMaker I V} (hc : CarefulIter mk) (fuel : Nat) {n : Nat} {h : Heap} {subs : List Val} {s : Attrs}
    (hs : Same n h subs s) (hm : s.model = .null) (hb : ∀ v ∈ subs, ∀ l, v = .ref l → l < n) :
    Same n h subs (fromMerge mk fuel s).attrs := by
  have hnull : NewTo n s.model := by rw [hm]; intro l e; cases e
  have hk := mergeAll_kept (m := fuel) s.subs s.heap s.model hs.long hnull (by rw [hs.subs]; exact hb)
  rw [← (mergeLoop_eq fuel s.subs s.heap s.model).1, ← (mergeLoop_eq fuel s.subs s.heap s.model).2] at hk
  unfold fromMerge
  split
  · rename_i h' m e he
    rw [he] at hk
    exact raised_same (s := { s with heap := h', model := m }) ⟨hs.kept.trans hk.1, hk.2.1, hs.subs⟩ _ _
  · rename_i h' m he
    rw [he] at hk
    have hs' : Same n h subs { s with heap := h', model := m } := ⟨hs.kept.trans hk.1, hk.2.1, hs.subs⟩
    exact after_same hs' _ _ (fun _ => model_same hc hs' (fun _ => hk.2.2) _)

private theorem subs_same {mk : IterMaker I V} (hc : CarefulIter mk) (fuel : Nat) {n : Nat} {h : Heap} {subs : List Val}
    (hb : ∀ v ∈ subs, ∀ l, v = .ref l → l < n) : ∀ (vs : List Val) (k : Nat) (s : Attrs), Same n h subs s → s.model = .null →
    Same n h subs (fromSubmodels mk fuel s k vs).attrs
  | [], k, s, hs, hm => after_same hs _ _ (fun _ => merge_same hc fuel hs hm hb)
  | v :: vs, k, s, hs, hm => by
    have ha := hs.advance hc (mk.start true v)
    simp only [fromSubmodels]
    split
    · rename_i h' e
      rw [e] at ha
      exact subs_same hc fuel hb vs (k + 1) _ ha hm
    · rename_i h' x e
      rw [e] at ha
      exact raised_same ha _ _
    · rename_i h' x it' e
      rw [e] at ha
      exact ⟨ha.kept, ha.long, ha.subs⟩

private theorem start_same {mk : IterMaker I V} (hc : CarefulIter mk) (fuel : Nat) (s : Attrs)
    (hb : ∀ v ∈ s.subs, ∀ l, v = .ref l → l < s.heap.length) : Same s.heap.length s.heap s.subs (genStart mk fuel s).attrs :=
  subs_same hc fuel hb _ _ _ ⟨Kept.refl _ _, Nat.le_refl _, rfl⟩ rfl

private theorem next_same {mk : IterMaker I V} (hc : CarefulIter mk) (fuel : Nat) (s : Attrs) (g : Gen I) (es : List (BuildErr V))
    (hg : Going s g es ∨ g = .over) (hb : ∀ v ∈ s.subs, ∀ l, v = .ref l → l < s.heap.length) :
    Same s.heap.length s.heap s.subs (genNext mk fuel s g).attrs := by
  have h0 : Same s.heap.length s.heap s.subs s := ⟨Kept.refl _ _, Nat.le_refl _, rfl⟩
  rcases hg.symm with rfl | hg
  · exact h0
  obtain ⟨hflag, hform⟩ := hg
  rcases hform with ⟨rfl, rfl⟩ | ⟨k, fs, h1, h4, hn, hf, hm, hend⟩
  · exact h0
  · have htrue : s.errored = some true := by
      rw [hflag]
      rcases hend with ⟨rfl, _⟩ | ⟨rfl, _⟩
      · cases es <;> simp_all
      · simp
    rcases hend with ⟨rfl, hg⟩ | ⟨rfl, hend⟩
    · rcases hg with ⟨j, it, rfl, rfl⟩ | ⟨it, rfl, rfl⟩ | rfl
      · have ha := h0.advance hc it
        simp only [genNext]
        split
        · rename_i h' e
          rw [e] at ha
          exact subs_same hc fuel hb _ _ _ ha (hm rfl)
        · rename_i h' x e
          rw [e] at ha
          exact raised_same ha _ _
        · rename_i h' x it' e
          rw [e] at ha
          exact ⟨ha.kept, ha.long, ha.subs⟩
      · exact model_same hc h0 (fun hne => absurd htrue hne) it
      · have hk : k = 1 ∨ k = 2 ∨ k = 3 ∨ k = 4 := by omega
        rcases hk with rfl | rfl | rfl | rfl <;> exact after_same h0 _ _ (fun hne => absurd htrue hne)
    · rcases hend with hg | hg <;> rw [hg] <;> exact h0

private theorem reads_bound {h : Heap} {v : Val} {d : Doc} (hr : Reads (whole h) v d) : ∀ l, v = .ref l → l < h.length := by
  rintro l rfl
  cases hr with
  | list _ _ _ e _ => exact (List.getElem?_eq_some_iff.1 e).1
  | dict _ _ _ e _ => exact (List.getElem?_eq_some_iff.1 e).1

private theorem readsList_bound {h : Heap} : ∀ {vs : List Val} {ds : List Doc}, ReadsList (whole h) vs ds →
    ∀ v ∈ vs, ∀ l, v = .ref l → l < h.length
  | _, _, .nil => by simp
  | _, _, .cons v d vs ds h1 h2 => by
    intro w hw
    cases hw with
    | head => exact reads_bound h1
    | tail _ hw => exact readsList_bound h2 w hw

private theorem readsList_append {g : View} {vs ws : List Val} {ds es : List Doc} : ReadsList g vs ds → ReadsList g ws es →
    ReadsList g (vs ++ ws) (ds ++ es)
  | .nil, h => h
  | .cons v d vs ds h1 h2, h => .cons _ _ _ _ h1 (readsList_append h2 h)

private theorem same_reads {h : Heap} {subs : List Val} {s : Attrs} {ds : List Doc} (hs : Same h.length h subs s)
    (hr : ReadsList (whole h) subs ds) : ReadsList (whole s.heap) s.subs ds := by
  rw [hs.subs]
  refine hr.mono ?_
  intro l o hl
  unfold whole at *
  rw [hs.kept l (List.getElem?_eq_some_iff.1 hl).1]
  exact hl

private theorem history {mk : IterMaker I V} {fuel : Nat} (hc : CarefulIter mk) {s : IterState I V} {ops : List IterOp} {ds : List Doc}
    (ht : ToldIter mk fuel s ops ds) : ∀ ds0, (Going s.attrs s.gen s.reported ∨ s.gen = .over) → ReadsList (whole s.attrs.heap) s.attrs.subs ds0 →
    ReadsList (whole (iterRun mk fuel s ops).attrs.heap) (iterRun mk fuel s ops).attrs.subs (ds0 ++ ds) := by
  induction ht with
  | done s => intro ds0 _ h; rw [List.append_nil]; exact h
  | new s o ops ds _ ih =>
    intro ds0 hg h
    refine ih ds0 (hg.imp (fun g => ⟨g.flag, g.form⟩) id) (h.mono ?_)
    intro l o' hl
    show (s.attrs.heap ++ [o])[l]? = some o'
    rw [List.getElem?_append_left (List.getElem?_eq_some_iff.1 hl).1]
    exact hl
  | add s v d ops ds hr _ ih =>
    intro ds0 hg h
    have := ih (ds0 ++ [d]) (hg.imp (fun g => ⟨g.flag, g.form⟩) id) (readsList_append h (.cons _ _ _ _ hr .nil))
    rw [List.append_assoc] at this
    exact this
  | begin s ops ds _ ih =>
    intro ds0 _ h
    exact ih ds0 (.inl (start_going mk fuel s.attrs)) (same_reads (start_same hc fuel s.attrs (readsList_bound h)) h)
  | next s ops ds _ ih =>
    intro ds0 hg h
    refine ih ds0 ?_ (same_reads (next_same hc fuel s.attrs s.gen s.reported hg (readsList_bound h)) h)
    rcases hg with hg | hg
    · exact .inl (next_going mk fuel _ _ _ hg)
    · right
      show (genNext mk fuel s.attrs s.gen).gen = .over
      rw [hg]; rfl

/-- C126: whatever builds were begun in between and abandoned anywhere, the submodels are what they were when they were added, when neither
validations nor curations write to objects of others. Missing: validations that fill in defaults (see `C28_prevalidation_refuted`). -/
theorem C126_submodels_partial (mk : IterMaker I V) (fuel : Nat) (hc : CarefulIter mk) (h : Heap) (ops : List IterOp) (ds : List Doc)
    (ht : ToldIter mk fuel (iterNew h) ops ds) :
    ReadsList (whole (iterRun mk fuel (iterNew h) ops).attrs.heap) (iterRun mk fuel (iterNew h) ops).attrs.subs ds :=
  history hc ht [] (.inr rfl) .nil

private theorem careful_plain {pre post : DSchema} (h1 : NoDefaults pre) (h2 : NoDefaults post) : CarefulIter (plainIter pre post) := by
  refine ⟨?_, ?_⟩
  · rintro h ⟨p, v⟩
    cases p <;> simp [plainIter, defaultsH_none _ h1, defaultsH_none _ h2] <;> exact Kept.refl _ _
  · intro n c hc; simp [plainIter] at hc

private theorem subs_plain {pre post : DSchema} (h1 : NoDefaults pre) (fuel : Nat) : ∀ (vs : List Val) (k : Nat) (s : Attrs),
    fromSubmodels (plainIter pre post) fuel s k vs = afterStep s 1 (fromMerge (plainIter pre post) fuel)
  | [], _, _ => rfl
  | v :: vs, k, s => by
    have : (plainIter pre post).advance s.heap ((plainIter pre post).start true v) = (s.heap, .finished) := by
      simp [plainIter, defaultsH_none _ h1]
    simp only [fromSubmodels, this]
    exact subs_plain h1 fuel vs (k + 1) s

private theorem start_plain {pre post : DSchema} (h1 : NoDefaults pre) (h2 : NoDefaults post) (fuel : Nat) (s : Attrs) :
    (genStart (plainIter pre post) fuel s).attrs.heap = (mergeAllH fuel s.heap .null s.subs).1 ∧
    (genStart (plainIter pre post) fuel s).attrs.model = (mergeAllH fuel s.heap .null s.subs).2.1 := by
  rw [← (mergeLoop_eq fuel s.subs s.heap .null).1, ← (mergeLoop_eq fuel s.subs s.heap .null).2]
  simp only [genStart, subs_plain h1, afterStep, Option.some.injEq, Bool.false_eq_true, if_false, fromMerge]
  split
  · rename_i e; rw [e]; exact ⟨rfl, rfl⟩
  · rename_i h m e
    rw [e]
    have : ∀ h v, (plainIter pre post).advance h ((plainIter pre post).start false v) = (h, .finished) := by
      intro h v; simp [plainIter, defaultsH_none _ h2]
    simp only [fromModel, this, afterStep, Option.some.injEq, Bool.false_eq_true, if_false, fromCurate,
      show (plainIter pre post).curators = [] from rfl, curateLoop, and_self]

/-- C126: with schemas without defaults, whatever builds were begun and abandoned before, the model of the next is the submodels as they
were when they were added, merged (C25), if they can be. -/
theorem C126_build_partial (pre post : DSchema) (h1 : NoDefaults pre) (h2 : NoDefaults post) (n fuel : Nat) (hf : n < fuel) (h : Heap)
    (ops : List IterOp) (ds : List Doc) (ht : ToldIter (plainIter pre post) fuel (iterNew h) ops ds) (hd : ∀ d ∈ ds, DepthLe n d) :
    Reads (whole (iterRun (plainIter pre post) fuel (iterNew h) (ops ++ [.begin])).attrs.heap)
      (iterRun (plainIter pre post) fuel (iterNew h) (ops ++ [.begin])).attrs.model (mergeAll .null ds).1 := by
  have hs := C126_submodels_partial _ fuel (careful_plain h1 h2) h ops ds ht
  rw [run_append]
  generalize iterRun (plainIter pre post) fuel (iterNew h) ops = s at *
  show Reads (whole (genStart (plainIter pre post) fuel s.attrs).attrs.heap) (genStart (plainIter pre post) fuel s.attrs).attrs.model _
  rw [(start_plain h1 h2 fuel s.attrs).1, (start_plain h1 h2 fuel s.attrs).2]
  exact (C28_merge_all_reads n fuel hf s.attrs.subs ds s.attrs.heap .null .null .null hs (.null n) hd).1

/-- C126: a build that reports nothing is run in one go, so that nothing can come in between: its first advance ends it. -/
theorem C126_one_go (mk : IterMaker I V) (fuel : Nat) (s : IterState I V) (h : (iterStep mk fuel s .begin).reported = []) :
    (iterStep mk fuel s .begin).gen = .over ∧ (iterStep mk fuel s .begin).attrs.errored = some false := by
  have hg := start_going mk fuel s.attrs
  have hr : (genStart mk fuel s.attrs).out.toList = [] := h
  rw [hr] at hg
  refine ⟨?_, hg.flag⟩
  rcases hg.form with ⟨_, h⟩ | ⟨k, fs, _, _, hn, _, _, h | h⟩
  · exact h
  · exact absurd h.1.symm hn
  · exact absurd h.1 (by simp)

/-! ### All that is reported -/

/-- Advanced on and on, the generator comes to its end. -/
private def Drains (mk : IterMaker I V) (fuel : Nat) (r : Advanced I V) (es : List (BuildErr V)) (a : Attrs) : Prop :=
  ∀ rep, ∃ n, iterRun mk fuel ⟨r.attrs, r.gen, rep ++ r.out.toList⟩ (List.replicate n .next) = ⟨a, .over, rep ++ es⟩

private theorem drains_step {mk : IterMaker I V} {fuel : Nat} {r : Advanced I V} {es : List (BuildErr V)} {a : Attrs}
    (h : Drains mk fuel (genNext mk fuel r.attrs r.gen) es a) : Drains mk fuel r (r.out.toList ++ es) a := by
  intro rep
  obtain ⟨n, hn⟩ := h (rep ++ r.out.toList)
  exact ⟨n + 1, by rw [List.replicate_succ]; simp only [iterRun, iterStep]; rw [hn, List.append_assoc]⟩

private theorem drains_gaveUp (mk : IterMaker I V) (fuel : Nat) (a : Attrs) (k : Nat) (ha : a.errored = some true) (f : Attrs → Advanced I V) :
    Drains mk fuel (afterStep a k f) [.gaveUp k] a := by
  simp only [afterStep, ha, if_true]
  intro rep
  exact ⟨1, by simp [iterRun, iterStep, genNext]⟩

private theorem drains_sub {mk : IterMaker I V} {fuel : Nat} {h : Heap} {it : I} {es : List V} {h' : Heap} (hc : Complains mk h it es h') :
    ∀ (subs : List Val) (m : Val) (k : Nat) (es' : List (BuildErr V)) (a' : Attrs),
      Drains mk fuel (fromSubmodels mk fuel ⟨h', subs, m, some true⟩ (k + 1) (subs.drop (k + 1))) es' a' →
      Drains mk fuel (genNext mk fuel ⟨h, subs, m, some true⟩ (.inSubmodel k it)) (es.map (.found 1) ++ es') a' := by
  induction hc with
  | finished e =>
    intro subs m k es' a' hd
    simp only [genNext, e]
    exact hd
  | @more h it h1 v it' vs h2 e _ ih =>
    intro subs m k es' a' hd
    simp only [genNext, e]
    exact drains_step (r := ⟨⟨h1, subs, m, some true⟩, .inSubmodel k it', some (.found 1 v)⟩) (ih subs m k es' a' hd)

private theorem drains_subs {mk : IterMaker I V} {fuel : Nat} {h : Heap} {vs : List Val} {es : List V} {h' : Heap}
    (hc : ComplainsAll mk h vs es h') : ∀ (subs : List Val) (m : Val) (k : Nat) (er : Option Bool), subs.drop k = vs → (er = some true ∨ es ≠ []) →
      Drains mk fuel (fromSubmodels mk fuel ⟨h, subs, m, er⟩ k vs) (es.map (.found 1) ++ [.gaveUp 1]) ⟨h', subs, m, some true⟩ := by
  induction hc with
  | @nil h =>
    intro subs m k er _ he
    have he : er = some true := he.resolve_right (by simp)
    subst he
    exact drains_gaveUp mk fuel ⟨h, subs, m, some true⟩ 1 rfl _
  | @cons h v vs es h1 es' h2 hv _ ih =>
    intro subs m k er hk he
    have hk' : subs.drop (k + 1) = vs := by rw [← List.tail_drop, hk]; rfl
    cases hv with
    | finished e =>
      simp only [fromSubmodels, e]
      exact ih subs m (k + 1) er hk' (by simpa using he)
    | @more _ _ h3 x it' ws _ e hw =>
      simp only [fromSubmodels, e]
      have := drains_sub (fuel := fuel) hw subs m k _ _ (by rw [hk']; exact ih subs m (k + 1) (some true) hk' (.inl rfl))
      have := drains_step (r := ⟨⟨h3, subs, m, some true⟩, .inSubmodel k it', some (.found 1 x)⟩) this
      simpa using this

private theorem drains_model {mk : IterMaker I V} {fuel : Nat} {h : Heap} {it : I} {es : List V} {h' : Heap} (hc : Complains mk h it es h') :
    ∀ (subs : List Val) (m : Val) (er : Option Bool), (er = some true ∨ es ≠ []) →
      Drains mk fuel (fromModel mk ⟨h, subs, m, er⟩ it) (es.map (.found 3) ++ [.gaveUp 3]) ⟨h', subs, m, some true⟩ := by
  induction hc with
  | @finished h it h' e =>
    intro subs m er he
    have he : er = some true := he.resolve_right (by simp)
    subst he
    simp only [fromModel, e]
    exact drains_gaveUp mk fuel ⟨h', subs, m, some true⟩ 3 rfl _
  | @more h it h1 v it' vs h2 e _ ih =>
    intro subs m er _
    simp only [fromModel, e]
    exact drains_step (r := ⟨⟨h1, subs, m, some true⟩, .inModel it', some (.found 3 v)⟩) (ih subs m (some true) (.inl rfl))

/-- C126: a build read to its end reports the errors of all the submodels, each once and in order, and that it gave up; it leaves no model. -/
theorem C126_all_submodels (mk : IterMaker I V) (fuel : Nat) (s : IterState I V) (es : List V) (h' : Heap)
    (hc : ComplainsAll mk s.attrs.heap s.attrs.subs es h') (hne : es ≠ []) :
    ∃ n, iterRun mk fuel s (.begin :: List.replicate n .next) =
      ⟨⟨h', s.attrs.subs, .null, some true⟩, .over, es.map (.found 1) ++ [.gaveUp 1]⟩ := by
  obtain ⟨n, hn⟩ := drains_subs (fuel := fuel) hc s.attrs.subs .null 0 (some false) rfl (.inr hne) []
  exact ⟨n, hn⟩

/-- C126: if there are none, and the submodels can be merged, it reports those of the merged model, and that it gave up. -/
theorem C126_all_merged (mk : IterMaker I V) (fuel : Nat) (s : IterState I V) (h1 h2 h3 : Heap) (m : Val) (es : List V)
    (hc : ComplainsAll mk s.attrs.heap s.attrs.subs [] h1) (hm : mergeLoop fuel h1 .null s.attrs.subs = (h2, m, none))
    (hv : Complains mk h2 (mk.start false m) es h3) (hne : es ≠ []) :
    ∃ n, iterRun mk fuel s (.begin :: List.replicate n .next) =
      ⟨⟨h3, s.attrs.subs, m, some true⟩, .over, es.map (.found 3) ++ [.gaveUp 3]⟩ := by
  have hf : ∀ (vs : List Val) (es : List V) (h h1 : Heap) (k : Nat), ComplainsAll mk h vs es h1 → es = [] →
      fromSubmodels mk fuel ⟨h, s.attrs.subs, .null, some false⟩ k vs =
        afterStep ⟨h1, s.attrs.subs, .null, some false⟩ 1 (fromMerge mk fuel) := by
    intro vs es h h1 k hc
    induction hc generalizing k with
    | nil => intro _; rfl
    | cons hx _ ih =>
      intro he
      obtain ⟨e1, e2⟩ := List.append_eq_nil_iff.1 he
      subst e1
      cases hx with
      | finished e => simp only [fromSubmodels, e]; exact ih (k + 1) e2
  obtain ⟨n, hn⟩ := drains_model (fuel := fuel) hv s.attrs.subs m (some false) (.inr hne) []
  refine ⟨n, ?_⟩
  have e : genStart mk fuel s.attrs = fromModel mk ⟨h2, s.attrs.subs, m, some false⟩ (mk.start false m) := by
    show fromSubmodels mk fuel ⟨s.attrs.heap, s.attrs.subs, .null, some false⟩ 0 s.attrs.subs = _
    rw [hf _ _ _ _ 0 hc rfl]
    simp [afterStep, fromMerge, hm]
  simp only [iterRun, iterStep, e]
  exact hn

/-- A maker that complains once about a submodel that is a dictionary without `a`, and puts it there. -/
private def fixing : IterMaker (Option Nat) Nat where
  start := fun isPre v => match isPre, v with
    | true, .ref l => some l
    | _, _ => none
  advance := fun h it => match it with
    | some l => if (dget (itemsAt h l) "a".toList).isSome then (h, .finished) else (setKey h l "a".toList (.int 1), .yields 7 none)
    | none => (h, .finished)
  curators := []

/-- The attributes of a maker with the submodel `{}`. -/
private def oneEmpty : Attrs := ⟨[.dict []], [.ref 0], .null, none⟩

/-- C126 fails when an iteration is resumed after another one has been begun: it goes on with the steps after the one of which it has
reported an error, and is over without saying that it gave up. -/
theorem C126_resumed_refuted :
    let a := genStart fixing 9 oneEmpty
    let b := genStart fixing 9 a.attrs
    let c := genNext fixing 9 b.attrs a.gen
    (a.out matches some (.found 1 7)) = true ∧ a.attrs.errored = some true ∧
    (b.out matches none) = true ∧ b.attrs.model = .ref 1 ∧
    (c.out matches none) = true ∧ (c.gen matches .over) = true ∧ c.attrs.errored = some false ∧ c.attrs.model = .ref 2 := by
  decide +kernel

/-! Cases that meet the hypotheses: a build that is abandoned after its error; another one after it. -/
example : .begin ∈ [IterOp.add (.ref 0), .begin, .new (.list []), .begin, .next] := by simp
example :
    ((iterRun fixing 9 (iterNew [.dict []]) [.add (.ref 0), .begin]).reported matches [.found 1 7]) = true ∧
    ((iterRun fixing 9 (iterNew [.dict []]) [.add (.ref 0), .begin, .next]).reported matches [.found 1 7, .gaveUp 1]) = true ∧
    (iterRun fixing 9 (iterNew [.dict []]) [.add (.ref 0), .begin, .begin]).reported.isEmpty = true := by decide +kernel
private def grumbling : IterMaker Nat Nat := ⟨fun pre _ => if pre then 0 else 2, fun h n => (h, if n = 0 then .finished else .yields n (n - 1)), []⟩
example : ComplainsAll fixing [.dict [], .dict []] [.ref 1, .null, .ref 0] ([7] ++ ([] ++ ([7] ++ []))) [.dict [("a".toList, .int 1)], .dict [("a".toList, .int 1)]] :=
  .cons (.more rfl (.finished rfl)) (.cons (.finished rfl) (.cons (.more rfl (.finished rfl)) .nil))
example : ComplainsAll grumbling [] [.int 3] ([] ++ []) [] ∧ mergeLoop 9 [] .null [.int 3] = ([], .int 3, none) ∧
    Complains grumbling [] (grumbling.start false (.int 3)) [2, 1] [] :=
  ⟨.cons (.finished rfl) .nil, by decide +kernel, .more rfl (.more rfl (.finished rfl))⟩
private theorem any_none : NoDefaults (.mk none []) := .mk _ _ (by simp) (by simp)
example : ToldIter (plainIter (.mk none []) (.mk none [])) 9 (iterNew [.dict []]) [.add (.ref 0), .begin, .next, .add .null, .begin] [.dict [], .null] :=
  .add _ _ _ _ _ (.dict 0 _ _ rfl .nil) (.begin _ _ _ (.next _ _ _ (.add _ _ _ _ _ .null (.begin _ _ _ (.done _)))))
example : CarefulIter (plainIter (.mk none []) (.mk none [])) := careful_plain any_none any_none

end Props
