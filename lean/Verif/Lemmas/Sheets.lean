import Verif.Spec.Sheets
import Verif.Lemmas.Dict
import Verif.Lemmas.RegexSound
namespace Lemmas
open Py Model Spec

theorem get_put (f : Factory) (k k' : SKey) (s : SheetObj) :
    (f.put k s).get k' = if k' = k then some s else f.get k' := by
  unfold Factory.get Factory.put
  simp only
  by_cases h1 : k'.1 = k.1
  · rw [h1, dget_dset_self]
    simp only
    by_cases h2 : k'.2 = k.2
    · rw [h2, dget_dset_self, if_pos (Prod.ext h1 h2)]
    · rw [dget_dset_ne _ _ h2, if_neg (fun e => h2 (by rw [e]))]
      cases dget f.cache k.1 with
      | none => rfl
      | some l => rfl
  · rw [dget_dset_ne _ _ h1, if_neg (fun e => h1 (by rw [e]))]

theorem dget_filter_val {α β : Type} [DecidableEq α] [DecidableEq β] (l : List (α × β)) (k : α) (s : β)
    (hn : (l.map (·.1)).Nodup) :
    dget (l.filter (fun e => e.2 ≠ s)) k = if dget l k = some s then none else dget l k := by
  induction l with
  | nil => simp [dget]
  | cons p t ih =>
    obtain ⟨a, b⟩ := p
    simp only [List.map_cons, List.nodup_cons] at hn
    have ih := ih hn.2
    by_cases hb : b = s
    · rw [List.filter_cons_of_neg (by simp [hb]), ih]
      by_cases ha : a = k
      · subst ha
        have : dget t a = none := by
          rw [dget_eq_none_iff]
          exact hn.1
        simp [dget, this, hb]
      · simp [dget, ha]
    · rw [List.filter_cons_of_pos (by simp [hb])]
      by_cases ha : a = k
      · simp [dget, ha, hb]
      · simp only [dget, ha, if_false, ih]

theorem mem_dset {α β : Type} [DecidableEq α] {l : List (α × β)} {k : α} {v : β} {e : α × β} (h : e ∈ dset l k v) :
    e ∈ l ∨ e = (k, v) ∨ (e.1 = k ∧ e.2 = v) := by
  induction l with
  | nil => simp only [dset, List.mem_cons, List.not_mem_nil, or_false] at h; exact .inr (.inl h)
  | cons p t ih =>
    obtain ⟨a, b⟩ := p
    unfold dset at h
    by_cases ha : a = k
    · rw [if_pos ha] at h
      rcases List.mem_cons.1 h with rfl | h
      · exact .inr (.inr ⟨ha, rfl⟩)
      · exact .inl (List.mem_cons_of_mem _ h)
    · rw [if_neg ha] at h
      rcases List.mem_cons.1 h with rfl | h
      · exact .inl (by simp)
      · rcases ih h with h | h
        · exact .inl (List.mem_cons_of_mem _ h)
        · exact .inr h

theorem nodup_dset {α β : Type} [DecidableEq α] {l : List (α × β)} {k : α} {v : β} (h : (l.map (·.1)).Nodup) :
    ((dset l k v).map (·.1)).Nodup := by
  have e := dkeys_dset l k v
  unfold dkeys at e
  rw [e]
  split
  · exact h
  · rename_i hk
    rw [List.nodup_append]
    refine ⟨h, by simp, ?_⟩
    intro a ha b hb
    simp only [List.mem_singleton] at hb
    subst hb
    rintro rfl
    exact hk ha

/-- The sheet ids of each workbook are not repeated. -/
def FOk (f : Factory) : Prop := ∀ w ∈ f.cache, (w.2.map (·.1)).Nodup

theorem FOk.get {f : Factory} (h : FOk f) {w : Str} {l : List (ShId × SheetObj)} (e : dget f.cache w = some l) :
    (l.map (·.1)).Nodup := h _ (mem_of_dget e)

theorem FOk.put {f : Factory} (h : FOk f) (k : SKey) (s : SheetObj) : FOk (f.put k s) := by
  have hn : (((dget f.cache k.1).getD []).map (·.1)).Nodup := by
    cases e : dget f.cache k.1 with
    | none => simp
    | some l => exact h.get e
  intro w hw
  rcases mem_dset hw with hw | rfl | ⟨-, hw⟩
  · exact h w hw
  · exact nodup_dset hn
  · rw [hw]; exact nodup_dset hn

theorem FOk.closeSheet {f : Factory} (h : FOk f) (k : SKey) : FOk (f.closeSheet k) := by
  unfold Factory.closeSheet
  cases f.get k with
  | none => exact h
  | some s =>
    intro w hw
    simp only [List.mem_map] at hw
    obtain ⟨w', hw', rfl⟩ := hw
    exact (h w' hw').sublist (List.Sublist.map _ List.filter_sublist)

theorem get_closeSheet {f : Factory} (h : FOk f) (k k' : SKey) :
    (f.closeSheet k).get k' = match f.get k with
      | none => f.get k'
      | some s => if f.get k' = some s then none else f.get k' := by
  unfold Factory.closeSheet
  cases hk : f.get k with
  | none => rfl
  | some s =>
    have hm := dget_map_val f.cache (fun _ l => l.filter (fun e => e.2 ≠ s)) k'.1
    cases e : dget f.cache k'.1 with
    | none =>
      have h1 : f.get k' = none := by simp only [Factory.get, e]
      simp only [h1]
      rw [e] at hm
      simp only [Factory.get, hm, Option.map_none]
      rfl
    | some l =>
      have h1 : f.get k' = dget l k'.2 := by simp only [Factory.get, e]
      simp only [h1]
      rw [e] at hm
      simp only [Factory.get, hm, Option.map_some]
      exact dget_filter_val l k'.2 s (h.get e)

theorem closed_closeSheet (f : Factory) (k : SKey) (t : SheetObj) :
    t ∈ (f.closeSheet k).closed ↔ t ∈ f.closed ∨ f.get k = some t := by
  unfold Factory.closeSheet
  cases hk : f.get k with
  | none => simp
  | some s =>
    simp only [List.mem_cons, Option.some.injEq]
    constructor
    · rintro (h | h)
      · exact .inr h.symm
      · exact .inl h
    · rintro (h | h)
      · exact .inr h
      · exact .inl h.symm

/-- One round of the loop of `add_sheet`. -/
def addKey (f : Factory) (s : SheetObj) (k : SKey) : Factory :=
  (match f.get k with
    | some old => if old ≠ s then f.closeSheet k else f
    | none => f).put k s

theorem addKeys_cons (f : Factory) (s : SheetObj) (k : SKey) (ks : List SKey) :
    f.addKeys s (k :: ks) = (addKey f s k).addKeys s ks := rfl

theorem addKey_facts {f : Factory} (h : FOk f) (s : SheetObj) (k : SKey) :
    FOk (addKey f s k) ∧
    (∀ k' t, (addKey f s k).get k' = some t ↔
      (k' = k ∧ t = s) ∨ (k' ≠ k ∧ f.get k' = some t ∧ (t = s ∨ f.get k ≠ some t))) ∧
    (∀ t, t ∈ (addKey f s k).closed ↔ t ∈ f.closed ∨ (t ≠ s ∧ f.get k = some t)) ∧
    (addKey f s k).opened = f.opened := by
  unfold addKey
  cases hk : f.get k with
  | none =>
    refine ⟨h.put _ _, ?_, ?_, rfl⟩
    · intro k' t
      simp only [get_put]
      by_cases e : k' = k
      · simp [e, eq_comm]
      · simp [e]
    · intro t; simp [Factory.put]
  | some old =>
    simp only
    by_cases ho : old = s
    · subst ho
      rw [if_neg (by simp)]
      refine ⟨h.put _ _, ?_, ?_, rfl⟩
      · intro k' t
        rw [get_put]
        by_cases e : k' = k
        · simp [e, eq_comm]
        · simp only [e, if_false, false_and, false_or, not_false_eq_true, true_and, ne_eq, Option.some.injEq]
          constructor
          · intro hh; refine ⟨hh, ?_⟩
            by_cases ht : t = old
            · exact .inl ht
            · exact .inr (fun e => ht e.symm)
          · exact fun hh => hh.1
      · intro t
        simp only [Factory.put, Option.some.injEq]
        constructor
        · exact .inl
        · rintro (hh | ⟨h1, h2⟩)
          · exact hh
          · exact absurd h2.symm h1
    · rw [if_pos ho]
      refine ⟨(h.closeSheet _).put _ _, ?_, ?_, ?_⟩
      · intro k' t
        rw [get_put, get_closeSheet h, hk]
        by_cases e : k' = k
        · simp [e, eq_comm]
        · simp only [e, if_false, false_and, false_or, ne_eq, not_false_eq_true, true_and, Option.some.injEq]
          by_cases hh : f.get k' = some old
          · rw [if_pos hh, hh]
            simp only [reduceCtorEq, Option.some.injEq, false_iff]
            rintro ⟨rfl, h2 | h2⟩
            · exact ho h2
            · exact h2 rfl
          · rw [if_neg hh]
            constructor
            · intro h1
              refine ⟨h1, .inr ?_⟩
              rintro rfl
              exact hh h1
            · exact fun h1 => h1.1
      · intro t
        show t ∈ (f.closeSheet k).closed ↔ _
        rw [closed_closeSheet, hk]
        constructor
        · rintro (h1 | h1)
          · exact .inl h1
          · refine .inr ⟨?_, h1⟩
            simp only [Option.some.injEq] at h1
            rw [← h1]; exact ho
        · rintro (h1 | ⟨_, h1⟩)
          · exact .inl h1
          · exact .inr h1
      · show (f.closeSheet k).opened = f.opened
        unfold Factory.closeSheet
        rw [hk]

theorem addKeys_facts (s : SheetObj) (ks : List SKey) : ∀ {f : Factory}, FOk f →
    FOk (f.addKeys s ks) ∧
    (∀ k t, (f.addKeys s ks).get k = some t ↔
      (k ∈ ks ∧ t = s) ∨ (k ∉ ks ∧ f.get k = some t ∧ (t = s ∨ ∀ k' ∈ ks, f.get k' ≠ some t))) ∧
    (∀ t, t ∈ (f.addKeys s ks).closed ↔ t ∈ f.closed ∨ (t ≠ s ∧ ∃ k' ∈ ks, f.get k' = some t)) ∧
    (f.addKeys s ks).opened = f.opened := by
  induction ks with
  | nil => intro f h; simp [Factory.addKeys, h]
  | cons k0 ks ih =>
    intro f h
    rw [addKeys_cons]
    obtain ⟨a1, a2, a3, a4⟩ := addKey_facts h s k0
    obtain ⟨b1, b2, b3, b4⟩ := ih a1
    refine ⟨b1, ?_, ?_, by rw [b4, a4]⟩
    · intro k t
      rw [b2]
      constructor
      · rintro (⟨h1, h2⟩ | ⟨h1, h2, h3⟩)
        · exact .inl ⟨List.mem_cons_of_mem _ h1, h2⟩
        · rcases (a2 k t).1 h2 with ⟨rfl, rfl⟩ | ⟨g1, g2, g3⟩
          · exact .inl ⟨by simp, rfl⟩
          · refine .inr ⟨by simp [g1, h1], g2, ?_⟩
            by_cases hts : t = s
            · exact .inl hts
            · right
              intro k' hk' e
              rcases List.mem_cons.1 hk' with rfl | hk'
              · exact (g3.resolve_left hts) e
              · by_cases e0 : k' = k0
                · subst e0; exact (g3.resolve_left hts) e
                · exact (h3.resolve_left hts) k' hk' ((a2 k' t).2 (.inr ⟨e0, e, g3⟩))
      · rintro (⟨h1, h2⟩ | ⟨h1, h2, h3⟩)
        · by_cases hm : k ∈ ks
          · exact .inl ⟨hm, h2⟩
          · have hk : k = k0 := by
              rcases List.mem_cons.1 h1 with h | h
              · exact h
              · exact absurd h hm
            exact .inr ⟨hm, (a2 k t).2 (.inl ⟨hk, h2⟩), .inl h2⟩
        · simp only [List.mem_cons, not_or] at h1
          refine .inr ⟨h1.2, (a2 k t).2 (.inr ⟨h1.1, h2, ?_⟩), ?_⟩
          · rcases h3 with h3 | h3
            · exact .inl h3
            · exact .inr (h3 k0 (by simp))
          · by_cases hts : t = s
            · exact .inl hts
            · right
              have h3 := h3.resolve_left hts
              intro k' hk' e
              rcases (a2 k' t).1 e with ⟨g1, g2⟩ | ⟨g1, g2, -⟩
              · exact absurd g2 hts
              · exact h3 k' (List.mem_cons_of_mem _ hk') g2
    · intro t
      rw [b3, a3]
      constructor
      · rintro ((h1 | ⟨h1, h2⟩) | ⟨h1, k', hk', h2⟩)
        · exact .inl h1
        · exact .inr ⟨h1, k0, by simp, h2⟩
        · rcases (a2 k' t).1 h2 with ⟨_, g⟩ | ⟨_, g, _⟩
          · exact absurd g h1
          · exact .inr ⟨h1, k', List.mem_cons_of_mem _ hk', g⟩
      · rintro (h1 | ⟨h1, k', hk', h2⟩)
        · exact .inl (.inl h1)
        · rcases List.mem_cons.1 hk' with rfl | hk'
          · exact .inl (.inr ⟨h1, h2⟩)
          · by_cases g : f.get k0 = some t
            · exact .inl (.inr ⟨h1, g⟩)
            · by_cases e : k' = k0
              · subst e; exact absurd h2 g
              · exact .inr ⟨h1, k', hk', (a2 k' t).2 (.inr ⟨e, h2, .inr g⟩)⟩

/-- Adding that raises is adding under the keys registered. -/
theorem addKeysOr_eq (fails : SheetObj → Bool) (s : SheetObj) : ∀ (ks : List SKey) (f : Factory),
    (f.addKeysOr fails s ks).1 = f.addKeys s (f.addKeysOr fails s ks).2.1 ∧
    ((f.addKeysOr fails s ks).2.2 = false → (f.addKeysOr fails s ks).2.1 = ks) ∧
    ((f.addKeysOr fails s ks).2.2 = true → ∃ k rest old, ks = (f.addKeysOr fails s ks).2.1 ++ k :: rest ∧
      (f.addKeysOr fails s ks).1.get k = some old ∧ old ≠ s ∧ fails old = true)
  | [], f => ⟨rfl, fun _ => rfl, by simp [Factory.addKeysOr]⟩
  | k :: ks, f => by
    unfold Factory.addKeysOr
    cases hk : f.get k with
    | none =>
      obtain ⟨h1, h2, h3⟩ := addKeysOr_eq fails s ks (f.put k s)
      refine ⟨?_, fun h => by simp only; rw [h2 h], ?_⟩
      · simp only [Factory.addKeys, hk]; exact h1
      · intro h
        obtain ⟨k', rest, old, e, g⟩ := h3 h
        exact ⟨k', rest, old, by simp only [List.cons_append, List.cons.injEq, true_and]; exact e, g⟩
    | some old =>
      simp only
      by_cases ho : old ≠ s
      · rw [if_pos ho]
        by_cases hf : fails old = true
        · rw [if_pos hf]
          exact ⟨rfl, by simp, fun _ => ⟨k, ks, old, rfl, hk, ho, hf⟩⟩
        · rw [if_neg hf]
          obtain ⟨h1, h2, h3⟩ := addKeysOr_eq fails s ks ((f.closeSheet k).put k s)
          refine ⟨?_, fun h => by simp only; rw [h2 h], ?_⟩
          · simp only [Factory.addKeys, hk, if_pos ho]; exact h1
          · intro h
            obtain ⟨k', rest, old, e, g⟩ := h3 h
            exact ⟨k', rest, old, by simp only [List.cons_append, List.cons.injEq, true_and]; exact e, g⟩
      · rw [if_neg ho]
        obtain ⟨h1, h2, h3⟩ := addKeysOr_eq fails s ks (f.put k s)
        refine ⟨?_, fun h => by simp only; rw [h2 h], ?_⟩
        · simp only [Factory.addKeys, hk, if_neg ho]; exact h1
        · intro h
          obtain ⟨k', rest, old, e, g⟩ := h3 h
          exact ⟨k', rest, old, by simp only [List.cons_append, List.cons.injEq, true_and]; exact e, g⟩

end Lemmas
