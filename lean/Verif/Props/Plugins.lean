import Verif.Model.Plugins
import Verif.Lemmas.PstepTuples
/-
C102: plugins are loaded and installed independently of each other.
-/
namespace Props
open Py Model Spec Lemmas

private theorem name_order : WeakOrder (fun a b : EntryPoint => strLt a.name b.name) where
  asymm a b h := by
    cases h' : strLt b.name a.name with
    | false => rfl
    | true =>
      have := strLt_trans h h'
      rw [strLt_irrefl] at this
      cases this
  trans a b c h h' := by
    cases h'' : strLt c.name a.name with
    | false => rfl
    | true =>
      by_cases e : b.name = a.name
      · rw [e] at h'
        rw [h''] at h'
        cases h'
      · have := strLt_trans h'' (strLt_total h e)
        rw [h'] at this
        cases this

/-- What `_plugins_installed` says after loading. -/
private def stage1 (ep : EntryPoint) : Nat := match ep.outcome with | .loadFails => 0 | _ => 1
/-- What `_plugins_installed` says in the end. -/
private def stage2 (ep : EntryPoint) : Nat := match ep.outcome with | .loadFails => 0 | .installs => 2 | _ => 1

private theorem load_spec : ∀ (eps : List EntryPoint) (inst : List (Str × Nat)),
    (loadPlugins eps inst).2 = (eps.map (fun ep => .load ep.text), eps.filter EntryPoint.callable) ∧
    (∀ k, (∀ ep ∈ eps, ep.text ≠ k) → dget (loadPlugins eps inst).1 k = dget inst k) ∧
    ((eps.map EntryPoint.text).Nodup → ∀ ep ∈ eps, dget (loadPlugins eps inst).1 ep.text = some (stage1 ep))
  | [], inst => ⟨rfl, fun _ _ => rfl, fun _ _ h => by cases h⟩
  | ep :: eps, inst => by
    have key : ∀ inst1 : List (Str × Nat), (∀ k, k ≠ ep.text → dget inst1 k = dget inst k) → dget inst1 ep.text = some (stage1 ep) →
        (∀ k, (∀ e ∈ ep :: eps, e.text ≠ k) → dget (loadPlugins eps inst1).1 k = dget inst k) ∧
        (((ep :: eps).map EntryPoint.text).Nodup → ∀ e ∈ ep :: eps, dget (loadPlugins eps inst1).1 e.text = some (stage1 e)) := by
      intro inst1 h1 h2
      obtain ⟨_, g2, g3⟩ := load_spec eps inst1
      refine ⟨fun k hk => ?_, fun hnd e he => ?_⟩
      · rw [g2 k (fun e he => hk e (by simp [he])), h1 k (fun e => hk ep (by simp) e.symm)]
      · rw [List.map_cons, List.nodup_cons] at hnd
        rcases List.mem_cons.1 he with rfl | he
        · rw [g2 e.text (fun e' he' eq => hnd.1 (eq ▸ List.mem_map_of_mem he')), h2]
        · exact g3 hnd.2 e he
    have ne : ∀ v k, k ≠ ep.text → dget (dset inst ep.text v) k = dget inst k := fun v k hk => dget_dset_ne _ _ hk
    cases ho : ep.outcome with
    | loadFails =>
      have hs : stage1 ep = 0 := by simp [stage1, ho]
      obtain ⟨k2, k3⟩ := key (dset inst ep.text 0) (ne 0) (by rw [dget_dset_self, hs])
      obtain ⟨g1, _, _⟩ := load_spec eps (dset inst ep.text 0)
      simp only [loadPlugins, ho]
      exact ⟨by simp [g1, EntryPoint.callable, ho], k2, k3⟩
    | notCallable =>
      have hs : stage1 ep = 1 := by simp [stage1, ho]
      obtain ⟨k2, k3⟩ := key (dset (dset inst ep.text 0) ep.text 1)
        (fun k hk => by rw [dget_dset_ne _ _ hk, ne 0 k hk]) (by rw [dget_dset_self, hs])
      obtain ⟨g1, _, _⟩ := load_spec eps (dset (dset inst ep.text 0) ep.text 1)
      simp only [loadPlugins, ho]
      exact ⟨by simp [g1, EntryPoint.callable, ho], k2, k3⟩
    | installFails =>
      have hs : stage1 ep = 1 := by simp [stage1, ho]
      obtain ⟨k2, k3⟩ := key (dset (dset inst ep.text 0) ep.text 1)
        (fun k hk => by rw [dget_dset_ne _ _ hk, ne 0 k hk]) (by rw [dget_dset_self, hs])
      obtain ⟨g1, _, _⟩ := load_spec eps (dset (dset inst ep.text 0) ep.text 1)
      simp only [loadPlugins, ho]
      exact ⟨by simp [g1, EntryPoint.callable, ho], k2, k3⟩
    | installs =>
      have hs : stage1 ep = 1 := by simp [stage1, ho]
      obtain ⟨k2, k3⟩ := key (dset (dset inst ep.text 0) ep.text 1)
        (fun k hk => by rw [dget_dset_ne _ _ hk, ne 0 k hk]) (by rw [dget_dset_self, hs])
      obtain ⟨g1, _, _⟩ := load_spec eps (dset (dset inst ep.text 0) ep.text 1)
      simp only [loadPlugins, ho]
      exact ⟨by simp [g1, EntryPoint.callable, ho], k2, k3⟩

private theorem install_spec : ∀ (eps : List EntryPoint) (inst : List (Str × Nat)),
    (installPlugins eps inst).2 = eps.map (fun ep => .call ep.text) ∧
    (∀ k, (∀ ep ∈ eps, ep.outcome = .installs → ep.text ≠ k) → dget (installPlugins eps inst).1 k = dget inst k) ∧
    (∀ ep ∈ eps, ep.outcome = .installs → dget (installPlugins eps inst).1 ep.text = some 2)
  | [], inst => ⟨rfl, fun _ _ => rfl, fun _ h => by cases h⟩
  | ep :: eps, inst => by
    have key : ∀ inst1 : List (Str × Nat), (∀ k, (ep.outcome = .installs → ep.text ≠ k) → dget inst1 k = dget inst k) →
        (ep.outcome = .installs → dget inst1 ep.text = some 2) →
        (∀ k, (∀ e ∈ ep :: eps, e.outcome = .installs → e.text ≠ k) → dget (installPlugins eps inst1).1 k = dget inst k) ∧
        (∀ e ∈ ep :: eps, e.outcome = .installs → dget (installPlugins eps inst1).1 e.text = some 2) := by
      intro inst1 h1 h2
      obtain ⟨_, g2, g3⟩ := install_spec eps inst1
      refine ⟨fun k hk => ?_, fun e he ho => ?_⟩
      · rw [g2 k (fun e he => hk e (by simp [he])), h1 k (hk ep (by simp))]
      · rcases List.mem_cons.1 he with rfl | he
        · cases hx : eps.any (fun x => decide (x.outcome = .installs ∧ x.text = e.text)) with
          | true =>
            obtain ⟨x, hx1, hx2⟩ := List.any_eq_true.1 hx
            obtain ⟨hx2, hx3⟩ := of_decide_eq_true hx2
            rw [← hx3]
            exact g3 x hx1 hx2
          | false =>
            rw [g2 _ (fun x hx1 hx2 hx3 => List.any_eq_false.1 hx x hx1 (decide_eq_true ⟨hx2, hx3⟩)), h2 ho]
        · exact g3 e he ho
    simp only [installPlugins]
    refine ⟨?_, ?_⟩
    · rw [(install_spec eps _).1]; rfl
    · cases ho : ep.outcome with
      | installs =>
        exact key (dset inst ep.text 2) (fun k hk => dget_dset_ne _ _ (hk ho).symm) (fun _ => dget_dset_self _ _ _)
      | _ => exact key inst (fun _ _ => rfl) (fun h => by rw [ho] at h; cases h)

/-- C102. When there are plugins, with different texts, `_plugins_installed` says afterwards how far each of them got, whatever happened to
the others: 0 if it could not be loaded, 1 if it could but there was nothing to call or the call failed, 2 if it was installed. What it says
of others is as before. -/
theorem C102_stages (eps : List EntryPoint) (inst : List (Str × Nat)) (hne : eps ≠ []) (hnd : (eps.map EntryPoint.text).Nodup) :
    ∃ inst' events, initPlugins eps inst = .ok (inst', events) ∧
      (∀ ep ∈ eps, (ep.outcome = .loadFails → dget inst' ep.text = some 0) ∧
        (ep.outcome = .notCallable → dget inst' ep.text = some 1) ∧
        (ep.outcome = .installFails → dget inst' ep.text = some 1) ∧
        (ep.outcome = .installs → dget inst' ep.text = some 2)) ∧
      ∀ text, (∀ ep ∈ eps, ep.text ≠ text) → dget inst' text = dget inst text := by
  have hperm : (sortEntryPoints eps).Perm eps := sortBy_perm eps
  obtain ⟨g1, g2, g3⟩ := load_spec (sortEntryPoints eps) inst
  obtain ⟨i1, i2, i3⟩ := install_spec (loadPlugins (sortEntryPoints eps) inst).2.2 (loadPlugins (sortEntryPoints eps) inst).1
  have hnd' : ((sortEntryPoints eps).map EntryPoint.text).Nodup := (hperm.map _).nodup_iff.2 hnd
  have hemp : eps.isEmpty = false := by cases eps with | nil => exact absurd rfl hne | cons _ _ => rfl
  have hload : (loadPlugins (sortEntryPoints eps) inst).2.2 = (sortEntryPoints eps).filter EntryPoint.callable := by rw [g1]
  have notIn : ∀ ep ∈ eps, ep.outcome ≠ .installs →
      ∀ x ∈ (loadPlugins (sortEntryPoints eps) inst).2.2, x.outcome = .installs → x.text ≠ ep.text := by
    intro ep hep ho x hx hxo he
    rw [hload] at hx
    have hx' := hperm.mem_iff.1 (List.mem_filter.1 hx).1
    have : x = ep := by
      have := List.nodup_iff_pairwise_ne.1 hnd
      rw [List.pairwise_map] at this
      clear hnd hnd' hload hx hne hperm g1 g2 g3 i1 i2 i3 hemp
      induction eps with
      | nil => cases hx'
      | cons a t ih =>
        rw [List.pairwise_cons] at this
        rcases List.mem_cons.1 hx' with rfl | hx' <;> rcases List.mem_cons.1 hep with rfl | hep
        · rfl
        · exact absurd he (this.1 _ hep)
        · exact absurd he.symm (this.1 _ (by assumption))
        · exact ih hep hx' this.2
    rw [this] at hxo
    exact ho hxo
  have hs : ∀ ep ∈ eps, dget (loadPlugins (sortEntryPoints eps) inst).1 ep.text = some (stage1 ep) :=
    fun ep hep => g3 hnd' ep (hperm.mem_iff.2 hep)
  refine ⟨_, _, by simp only [initPlugins, hemp, Bool.false_eq_true, if_false]; rfl, fun ep hep => ⟨fun ho => ?_, fun ho => ?_, fun ho => ?_, fun ho => ?_⟩, fun text ht => ?_⟩
  · rw [i2 _ (notIn ep hep (by rw [ho]; decide)), hs ep hep, stage1, ho]
  · rw [i2 _ (notIn ep hep (by rw [ho]; decide)), hs ep hep, stage1, ho]
  · rw [i2 _ (notIn ep hep (by rw [ho]; decide)), hs ep hep, stage1, ho]
  · refine i3 ep ?_ ho
    rw [hload]
    exact List.mem_filter.2 ⟨hperm.mem_iff.2 hep, by simp [EntryPoint.callable, ho]⟩
  · rw [i2 text (fun x hx _ => ?_), g2 text (fun x hx => ht x (hperm.mem_iff.1 hx))]
    rw [hload] at hx
    exact ht x (hperm.mem_iff.1 (List.mem_filter.1 hx).1)

/-- C102. All plugins are loaded first, each once, in the order of their names and, with equal names, in the order found; then what they gave
to be called is called, in the same order. -/
theorem C102_order (eps : List EntryPoint) (inst inst' : List (Str × Nat)) (events : List PluginEvent)
    (h : initPlugins eps inst = .ok (inst', events)) :
    ∃ sorted : List EntryPoint, sorted.Perm eps ∧
      sorted.Pairwise (fun a b => a.name = b.name ∨ TextBefore a.name b.name) ∧
      (∀ name, sorted.filter (fun ep => decide (ep.name = name)) = eps.filter (fun ep => decide (ep.name = name))) ∧
      events = sorted.map (fun ep => .load ep.text) ++
        (sorted.filter (fun ep => decide (ep.outcome = .installs ∨ ep.outcome = .installFails))).map (fun ep => .call ep.text) := by
  refine ⟨sortEntryPoints eps, sortBy_perm eps, ?_, fun name => ?_, ?_⟩
  · exact (sortBy_sorted name_order eps).imp (fun h => not_strLt h)
  · refine sortBy_stable (fun a b ha hb => ?_) eps
    rw [of_decide_eq_true ha, of_decide_eq_true hb]
    exact strLt_irrefl _
  · unfold initPlugins at h
    split at h
    · cases h
    · injection h with h
      injection h with _ h
      rw [← h, (load_spec _ inst).1, (install_spec _ _).1]
      congr 2
      refine List.filter_congr (fun ep _ => ?_)
      unfold EntryPoint.callable
      cases ep.outcome <;> rfl

/-- C102. Without any plugin there is an error. -/
theorem C102_none (inst : List (Str × Nat)) : initPlugins [] inst = .error .valueError := rfl

/-- C102. What happens to one plugin makes no difference to the others. -/
theorem C102_isolated (before after : List EntryPoint) (ep : EntryPoint) (outcome : PluginOutcome) (inst inst1 inst2 : List (Str × Nat))
    (events1 events2 : List PluginEvent) (hnd : ((before ++ ep :: after).map EntryPoint.text).Nodup)
    (h1 : initPlugins (before ++ ep :: after) inst = .ok (inst1, events1))
    (h2 : initPlugins (before ++ { ep with outcome := outcome } :: after) inst = .ok (inst2, events2)) :
    ∀ text, text ≠ ep.text → dget inst1 text = dget inst2 text := by
  intro text ht
  obtain ⟨i1, e1, q1, s1, o1⟩ := C102_stages (before ++ ep :: after) inst (by simp) hnd
  obtain ⟨i2, e2, q2, s2, o2⟩ := C102_stages (before ++ { ep with outcome := outcome } :: after) inst (by simp) (by simpa using hnd)
  rw [h1] at q1
  injection q1 with q1
  injection q1 with q1 _
  rw [h2] at q2
  injection q2 with q2
  injection q2 with q2 _
  subst q1 q2
  have pick : ∀ x, x ∈ before ∨ x ∈ after → dget inst1 x.text = dget inst2 x.text := by
    intro x hx
    have hm : ∀ e : EntryPoint, x ∈ before ++ e :: after := by
      intro e
      rcases hx with hx | hx <;> simp [hx]
    obtain ⟨a1, a2, a3, a4⟩ := s1 x (hm _)
    obtain ⟨b1, b2, b3, b4⟩ := s2 x (hm _)
    cases ho : x.outcome with
    | loadFails => rw [a1 ho, b1 ho]
    | notCallable => rw [a2 ho, b2 ho]
    | installFails => rw [a3 ho, b3 ho]
    | installs => rw [a4 ho, b4 ho]
  cases hx : (before ++ after).find? (fun x => decide (x.text = text)) with
  | some x =>
    have := List.find?_some hx
    rw [← of_decide_eq_true this]
    exact pick x (List.mem_append.1 (List.mem_of_find?_eq_some hx))
  | none =>
    have hno : ∀ x, x ∈ before ∨ x ∈ after → x.text ≠ text := by
      intro x hm e
      have := List.find?_eq_none.1 hx x (List.mem_append.2 hm)
      exact this (decide_eq_true e)
    rw [o1 text, o2 text]
    · intro x hm
      rcases List.mem_append.1 hm with hm | hm
      · exact hno x (.inl hm)
      · rcases List.mem_cons.1 hm with rfl | hm
        · exact Ne.symm ht
        · exact hno x (.inr hm)
    · intro x hm
      rcases List.mem_append.1 hm with hm | hm
      · exact hno x (.inl hm)
      · rcases List.mem_cons.1 hm with rfl | hm
        · exact Ne.symm ht
        · exact hno x (.inr hm)

/-- The plugins of the project itself, and one that is broken. -/
def somePlugins : List EntryPoint :=
  [⟨"xleash_xlrd".toList, "x".toList, .installs⟩, ⟨"broken".toList, "b".toList, .loadFails⟩, ⟨"xleash_pandas".toList, "p".toList, .installFails⟩]

example : (somePlugins.map EntryPoint.text).Nodup ∧ (match initPlugins somePlugins [] with
    | .ok (i, e) => decide (i = [("b".toList, 0), ("p".toList, 1), ("x".toList, 2)] ∧
      e = [.load "b".toList, .load "p".toList, .load "x".toList, .call "p".toList, .call "x".toList])
    | .error _ => false) = true := by decide +kernel
end Props
