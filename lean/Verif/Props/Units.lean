import Verif.Model.Units
import Verif.Spec.Units
import Verif.Lemmas.Utils
import Verif.Lemmas.RegexSound
/-
Property C59: names with units.
-/
namespace Props
open Py Model Spec Lemmas

/-- Greedy repetition of a class: when the continuation matches after taking all, that is the match. -/
private theorem star_cls_all {α : Type} {p : Char → Bool} {k : Str → Caps → Option α} {c : Caps} {s1 : Str}
    (hs : ∀ x, s1.head? = some x → p x = false) (hk : (k s1 c).isSome) :
    ∀ (a : Str) (n : Nat), a.length ≤ n → (∀ x ∈ a, p x = true) →
      starM (fun s c k => (Re.cls p).m s c k) k n (a ++ s1) c = k s1 c := by
  intro a
  induction a with
  | nil =>
    intro n _ _
    cases n with
    | zero => rfl
    | succ n =>
      rw [List.nil_append, starM]
      cases s1 with
      | nil => simp [Re.m]
      | cons x t => simp [Re.m, hs x rfl]
  | cons x a ih =>
    intro n hn hp
    cases n with
    | zero => simp at hn
    | succ n =>
      rw [List.cons_append, starM]
      have : (Re.cls p).m (x :: (a ++ s1)) c (fun s' c' =>
          if s'.length < (x :: (a ++ s1)).length then starM (fun s c k => (Re.cls p).m s c k) k n s' c' else none)
          = k s1 c := by
        rw [Re.m]
        simp only [hp x (by simp), if_true, List.length_cons, Nat.lt_succ_self]
        exact ih n (by simpa using hn) (fun y hy => hp y (by simp [hy]))
      rw [this]
      obtain ⟨v, hv⟩ := Option.isSome_iff_exists.1 hk
      rw [hv]; rfl

/-- Lazy repetition of a class takes the shortest text after which the continuation matches. -/
private theorem lazy_cls_shortest {α : Type} {p : Char → Bool} {k : Str → Caps → Option α} {c : Caps} {r : α} :
    ∀ (n : Nat) (s : Str), lazyM (fun s c k => (Re.cls p).m s c k) k n s c = some r →
      ∃ u t, s = u ++ t ∧ (∀ x ∈ u, p x = true) ∧ k t c = some r ∧
        ∀ u1 y u2, u = u1 ++ y :: u2 → k (y :: u2 ++ t) c = none := by
  intro n
  induction n with
  | zero => intro s h; exact ⟨[], s, rfl, by simp, h, by simp⟩
  | succ n ih =>
    intro s h
    rw [lazyM] at h
    cases hk : k s c with
    | some v =>
      rw [hk] at h
      simp only [Option.some_or] at h
      exact ⟨[], s, rfl, by simp, by rw [hk, h], by simp⟩
    | none =>
      rw [hk, Option.none_or] at h
      cases s with
      | nil => simp [Re.m] at h
      | cons x s =>
        rw [Re.m] at h
        by_cases hp : p x = true
        · simp only [hp, if_true, List.length_cons, Nat.lt_succ_self] at h
          obtain ⟨u, t, rfl, h1, h2, h3⟩ := ih s h
          refine ⟨x :: u, t, rfl, ?_, h2, ?_⟩
          · intro y hy
            rcases List.mem_cons.1 hy with rfl | hy
            · exact hp
            · exact h1 y hy
          · intro u1 y u2 e
            cases u1 with
            | nil =>
              simp only [List.nil_append, List.cons.injEq] at e
              obtain ⟨rfl, rfl⟩ := e
              exact hk
            | cons z u1 =>
              simp only [List.cons_append, List.cons.injEq] at e
              exact h3 u1 y u2 e.2
        · simp [hp] at h

private theorem run_seq {a b : Re} {s s' : Str} {c c' : Caps} :
    Re.Run (.seq a b) s c s' c' ↔ ∃ s1 c1, Re.Run a s c s1 c1 ∧ Re.Run b s1 c1 s' c' := by
  constructor
  · intro h; cases h with
    | seq h1 h2 => exact ⟨_, _, h1, h2⟩
  · rintro ⟨s1, c1, h1, h2⟩; exact .seq h1 h2

private theorem run_star_intro {p : Char → Bool} {c : Caps} (s' : Str) : ∀ t : Str, (∀ x ∈ t, p x = true) →
    Re.Run (.star (.cls p)) (t ++ s') c s' c := by
  intro t
  induction t with
  | nil => intro _; exact .starNil
  | cons x t ih =>
    intro h
    exact .starCons (s1 := t ++ s') (.cls (h x (by simp))) (by simp) (ih (fun y hy => h y (by simp [hy])))

/-- The text of the units with their brackets, as the regex captures it. -/
private def Brackets (u : Option Str) (w : Str) : Prop :=
  (u = none ∧ w = []) ∨ (u = some w ∧ ∃ v, (']' ∉ v ∧ w = '[' :: v ++ [']']) ∨ (')' ∉ v ∧ w = '<' :: v ++ ['>']))

private theorem run_units {s s' : Str} {c c' : Caps} (hc : c "units" = none) (h : Re.Run reUnits s c s' c') :
    ∃ b w d, s = b ++ w ++ d ∧ Blank b ∧ Blank d ∧ Brackets (c' "units") w ∧ ∀ x, x ≠ "units" → c' x = c x := by
  unfold reUnits at h
  obtain ⟨s1, c1, h1, ha⟩ := run_seq.1 h
  obtain ⟨s2, c2, h2, hb⟩ := run_seq.1 ha
  obtain ⟨s3, c3, h3, h4⟩ := run_seq.1 hb
  clear h ha hb
  obtain ⟨rfl, b, rfl, hb⟩ := run_star_cls h1
  obtain ⟨rfl, d, rfl, hd⟩ := run_star_cls h3
  cases h4 with
  | eos hend =>
    have hbl : Blank (d ++ s') := by
      intro x hx
      rcases List.mem_append.1 hx with hx | hx
      · exact hd x hx
      · have : s' = [] ∨ s' = ['\n'] := by simpa [atEnd] using hend
        rcases this with rfl | rfl
        · simp at hx
        · simp only [List.mem_singleton] at hx; subst hx; rfl
    rcases run_opt h2 with h3 | ⟨rfl, rfl⟩
    · cases h3 with
      | @grp _ _ _ _ _ c4 h4 =>
        have key : ∃ w v, s1 = w ++ (d ++ s') ∧ c4 = c1 ∧
            ((']' ∉ v ∧ w = '[' :: v ++ [']']) ∨ (')' ∉ v ∧ w = '<' :: v ++ ['>'])) := by
          cases h4 with
          | altL h5 =>
            obtain ⟨t1, e1, g1, g⟩ := run_seq.1 h5
            obtain ⟨t2, e2, g2, g3⟩ := run_seq.1 g
            obtain ⟨rfl, x, rfl, hx⟩ := run_cls g1
            obtain ⟨rfl, v, rfl, hv⟩ := run_star_cls g2
            obtain ⟨rfl, y, rfl, hy⟩ := run_cls g3
            simp only [beq_iff_eq] at hx hy
            subst hx hy
            exact ⟨'[' :: v ++ [']'], v, by simp, rfl, .inl ⟨fun h => by simpa using hv _ h, rfl⟩⟩
          | altR h5 =>
            obtain ⟨t1, e1, g1, g⟩ := run_seq.1 h5
            obtain ⟨t2, e2, g2, g3⟩ := run_seq.1 g
            obtain ⟨rfl, x, rfl, hx⟩ := run_cls g1
            obtain ⟨rfl, v, rfl, hv⟩ := run_star_cls g2
            obtain ⟨rfl, y, rfl, hy⟩ := run_cls g3
            simp only [beq_iff_eq] at hx hy
            subst hx hy
            exact ⟨'<' :: v ++ ['>'], v, by simp, rfl, .inr ⟨fun h => by simpa using hv _ h, rfl⟩⟩
        obtain ⟨w, v, rfl, rfl, hw⟩ := key
        have ht : (w ++ (d ++ s')).take ((w ++ (d ++ s')).length - (d ++ s').length) = w := by
          simp
        refine ⟨b, w, d ++ s', by simp, hb, hbl, ?_, ?_⟩
        · right
          rw [ht]
          exact ⟨by simp [Caps.put], v, hw⟩
        · intro x hx
          simp [Caps.put, hx]
    · exact ⟨b, [], d ++ s', by simp, hb, hbl, .inl ⟨hc, rfl⟩, fun _ _ => rfl⟩

private theorem run_units_intro {b w d : Str} {c : Caps} {u : Option Str} (hb : Blank b) (hd : Blank d)
    (hw : Writes u w) : ∃ c', Re.Run reUnits (b ++ w ++ d) c [] c' := by
  have e : b ++ w ++ d = b ++ (w ++ (d ++ [])) := by simp
  rw [e]
  have tail : ∀ c, Re.Run (.seq (.star (.cls isSpaceU)) .eos) (d ++ []) c [] c := fun c =>
    .seq (run_star_intro [] d hd) (.eos rfl)
  cases hw with
  | none => exact ⟨_, .seq (run_star_intro _ b hb) (.seq (.altR .eps) (tail _))⟩
  | square u hu =>
    have br : Re.Run (.seq (Re.chr '[') (.seq (.star (.cls (fun c => c != ']'))) (Re.chr ']')))
        ('[' :: u ++ [']'] ++ (d ++ [])) c (d ++ []) c := by
      simp only [List.append_assoc, List.cons_append, List.nil_append]
      exact .seq (.cls (by simp)) (.seq (run_star_intro (']' :: (d ++ [])) u
        (fun x hx => by simp; rintro rfl; exact hu hx)) (.cls (by simp)))
    exact ⟨_, .seq (run_star_intro _ b hb) (.seq (.altL (.grp (.altL br))) (tail _))⟩
  | angle u hu =>
    have br : Re.Run (.seq (Re.chr '<') (.seq (.star (.cls (fun c => c != ')'))) (Re.chr '>')))
        ('<' :: u ++ ['>'] ++ (d ++ [])) c (d ++ []) c := by
      simp only [List.append_assoc, List.cons_append, List.nil_append]
      exact .seq (.cls (by simp)) (.seq (run_star_intro ('>' :: (d ++ [])) u
        (fun x hx => by simp; rintro rfl; exact hu hx)) (.cls (by simp)))
    exact ⟨_, .seq (run_star_intro _ b hb) (.seq (.altL (.grp (.altR br))) (tail _))⟩

private theorem brackets_clean {u : Option Str} {w : Str} (h : Brackets u w) :
    ∃ v, Writes v w ∧ cleanGroup u = v := by
  have go : ∀ (v : Str) (e : Char), e = ']' ∨ e = '>' → cleanUnits false (v ++ [e]) = v := by
    intro v e he
    induction v with
    | nil => rcases he with rfl | rfl <;> rfl
    | cons x v ih =>
      rw [List.cons_append, cleanUnits, ih, if_neg]
      have : atEnd (v ++ [e]) = false := by
        rcases he with rfl | rfl <;> cases v with
        | nil => rfl
        | cons y v => cases v <;> simp [atEnd]
      simp [this]
  rcases h with ⟨rfl, rfl⟩ | ⟨rfl, v, ⟨hv, rfl⟩ | ⟨hv, rfl⟩⟩
  · exact ⟨none, .none, rfl⟩
  · refine ⟨some v, .square v hv, ?_⟩
    show some (cleanUnits true ('[' :: (v ++ [']']))) = some v
    rw [cleanUnits, if_pos (by simp), go v _ (.inl rfl)]
  · refine ⟨some v, .angle v hv, ?_⟩
    show some (cleanUnits true ('<' :: (v ++ ['>']))) = some v
    rw [cleanUnits, if_pos (by simp), go v _ (.inr rfl)]

private theorem writes_head {u : Option Str} {w : Str} (h : Writes u w) (x : Char) (hx : w.head? = some x) :
    x = '[' ∨ x = '<' := by
  cases h with
  | none => simp at hx
  | square => simp at hx; exact .inl hx.symm
  | angle => simp at hx; exact .inr hx.symm

/-- Every text of the form matches. -/
private theorem value_intro1 {name b w d : Str} {u : Option Str} (hb : Blank b) (hd : Blank d) (hw : Writes u w)
    (hn : ∀ x ∈ name, x ≠ '[' ∧ x ≠ '<') (c : Caps) :
    ∃ c', Re.Run (.seq (.grp "name" (.lazyStar (.cls (fun c => c != '[' && c != '<')))) reUnits)
      (name ++ (b ++ w ++ d)) c [] c' := by
  have lz : ∀ t : Str, (∀ x ∈ name, x ≠ '[' ∧ x ≠ '<') → ∀ c,
      Re.Run (.lazyStar (.cls (fun c => c != '[' && c != '<'))) (name ++ t) c t c := by
    clear hn
    intro t
    induction name with
    | nil => intro _ c; exact .lazyNil
    | cons x n ih =>
      intro h c
      exact .lazyCons (s1 := n ++ t) (.cls (by simpa using h x (by simp))) (by simp) (ih (fun y hy => h y (by simp [hy])) c)
  obtain ⟨c', hr⟩ := run_units_intro (c := c.put "name" ((name ++ (b ++ w ++ d)).take
    ((name ++ (b ++ w ++ d)).length - (b ++ w ++ d).length))) hb hd hw
  exact ⟨c', .seq (.grp (lz _ hn _)) hr⟩

private theorem value_intro {s name : Str} {u : Option Str} (h : WithUnits s name u) :
    (reValueUnits.match? s).isSome := by
  obtain ⟨a, b, w, d, rfl, ha, hb, hd, hn, hw⟩ := h
  have e : a ++ name ++ b ++ w ++ d = a ++ (name ++ (b ++ w ++ d)) := by simp
  rw [e, match_isSome_iff]
  obtain ⟨c', hr⟩ := value_intro1 hb hd hw (fun x hx =>
    ⟨fun e => hn.square (e ▸ hx), fun e => hn.angle (e ▸ hx)⟩) Caps.empty
  exact ⟨[], c', .seq (run_star_intro _ a ha) hr⟩

private theorem dropWhile_blank {a x : Str} (ha : Blank a) : (a ++ x).dropWhile isSpaceU = x.dropWhile isSpaceU := by
  induction a with
  | nil => rfl
  | cons y a ih =>
    rw [List.cons_append, List.dropWhile_cons, ha y (by simp)]
    simp only [if_true]
    exact ih (fun z hz => ha z (by simp [hz]))

private theorem blank_append {a b : Str} (ha : Blank a) (hb : Blank b) : Blank (a ++ b) := by
  intro x hx
  rcases List.mem_append.1 hx with h | h
  · exact ha x h
  · exact hb x h

/-- A text that matches in any way is of the form, and so is the text without its leading spaces. -/
private theorem lang {s s' : Str} {c' : Caps} (h : Re.Run reValueUnits s Caps.empty s' c') :
    ∃ name b w d u, s.dropWhile isSpaceU = name ++ (b ++ w ++ d) ∧ Blank b ∧ Blank d ∧ IsName name ∧ Writes u w := by
  obtain ⟨s1, c1, h1, ha⟩ := run_seq.1 h
  obtain ⟨s2, c2, h2, h3⟩ := run_seq.1 ha
  clear h ha
  obtain ⟨rfl, a, rfl, ha⟩ := run_star_cls h1
  clear h1
  have lzr : ∀ {s s' : Str} {c c' : Caps}, Re.Run (.lazyStar (.cls (fun c => c != '[' && c != '<'))) s c s' c' →
      c' = c ∧ ∃ t, s = t ++ s' ∧ ∀ x ∈ t, x ≠ '[' ∧ x ≠ '<' := by
    intro s s' c c' h
    generalize hr : Re.lazyStar (.cls (fun c => c != '[' && c != '<')) = r at h
    induction h with
    | lazyNil => exact ⟨rfl, [], rfl, by simp⟩
    | lazyCons h1 _ h2 _ ih =>
      cases hr
      obtain ⟨rfl, x, rfl, hp⟩ := run_cls h1
      obtain ⟨rfl, t, rfl, ht⟩ := ih rfl
      refine ⟨rfl, x :: t, rfl, ?_⟩
      intro y hy
      rcases List.mem_cons.1 hy with rfl | hy
      · simpa using hp
      · exact ht y hy
    | _ => cases hr
  cases h2 with
  | @grp _ _ _ _ _ c3 h2 =>
    obtain ⟨rfl, n, rfl, hn⟩ := lzr h2
    obtain ⟨b, w, d, rfl, hb, hd, hw, -⟩ := run_units (by rfl) h3
    obtain ⟨u, hw, -⟩ := brackets_clean hw
    obtain ⟨pre, post, e, p1, p2, p3, p4⟩ := stripBy_spec isSpaceU n
    generalize stripBy isSpaceU n = core at *
    subst e
    have hcore : IsName core := ⟨fun h => (hn _ (by simp [h])).1 rfl, fun h => (hn _ (by simp [h])).2 rfl, p3, p4⟩
    have e1 : a ++ (pre ++ core ++ post ++ (b ++ w ++ d)) = (a ++ pre) ++ (core ++ ((post ++ b) ++ w ++ d)) := by simp
    rw [e1, dropWhile_blank (blank_append ha p1)]
    cases core with
    | cons x t =>
      refine ⟨x :: t, post ++ b, w, d, u, ?_, blank_append p2 hb, hd, hcore, hw⟩
      rw [List.cons_append, List.dropWhile_cons, p3 x rfl]
      rfl
    | nil =>
      rw [List.nil_append, List.append_assoc, dropWhile_blank (blank_append p2 hb)]
      cases w with
      | nil =>
        refine ⟨[], [], [], [], none, ?_, by simp [Blank], by simp [Blank], hcore, .none⟩
        have := dropWhile_blank (a := d) (x := []) hd
        rw [List.append_nil] at this
        rw [List.nil_append, this]; rfl
      | cons x t =>
        refine ⟨[], [], x :: t, d, u, ?_, by simp [Blank], hd, hcore, hw⟩
        have hx : isSpaceU x = false := by
          rcases writes_head hw x rfl with rfl | rfl <;> rfl
        rw [List.cons_append, List.dropWhile_cons, hx]
        rfl

private theorem head_dropWhile (s : Str) (x : Char) (h : (s.dropWhile isSpaceU).head? = some x) : isSpaceU x = false := by
  induction s with
  | nil => simp at h
  | cons y s ih =>
    rw [List.dropWhile_cons] at h
    by_cases hy : isSpaceU y = true
    · rw [if_pos hy] at h; exact ih h
    · rw [if_neg hy] at h
      simp only [List.head?_cons, Option.some.injEq] at h
      subst h; simpa using hy

/-- Whatever matches, read by the priorities of the regex, is of the form. -/
private theorem value_sound {s s' : Str} {c' : Caps} (h : reValueUnits.match? s = some (s', c')) :
    ∃ name u w, c' "name" = some name ∧ Brackets (c' "units") w ∧ Writes u w ∧
      ∃ a b d, s = a ++ name ++ b ++ w ++ d ∧ Blank a ∧ Blank b ∧ Blank d ∧ IsName name := by
  obtain ⟨name, b, w, d, u, e0, hb, hd, hn, hw⟩ := lang (match_run h)
  obtain ⟨c1, hrun⟩ := value_intro1 hb hd hw (fun x hx =>
    ⟨fun e => hn.square (e ▸ hx), fun e => hn.angle (e ▸ hx)⟩) Caps.empty
  rw [← e0] at hrun
  have hsome := m_complete _ hrun (fun s' c => some (s', c)) rfl
  have hsplit : s = s.takeWhile isSpaceU ++ s.dropWhile isSpaceU := List.takeWhile_append_dropWhile.symm
  have htw : Blank (s.takeWhile isSpaceU) := fun x hx => by
    have := List.all_takeWhile (p := isSpaceU) (l := s)
    rw [List.all_eq_true] at this
    exact this x hx
  have hm : reValueUnits.match? s = (Re.seq (.grp "name" (.lazyStar (.cls (fun c => c != '[' && c != '<')))) reUnits).m
      (s.dropWhile isSpaceU) Caps.empty (fun s' c => some (s', c)) := by
    have hstar := star_cls_all (p := isSpaceU) (k := fun s1 c1 => (Re.seq (.grp "name" (.lazyStar (.cls
      (fun c => c != '[' && c != '<')))) reUnits).m s1 c1 (fun s' c => some (s', c)))
      (head_dropWhile s) hsome (s.takeWhile isSpaceU) s.length
      (List.takeWhile_sublist _).length_le htw
    rw [← hsplit] at hstar
    exact hstar
  rw [hm] at h
  generalize hs0 : s.dropWhile isSpaceU = s0 at *
  have hlz : lazyM (fun s c k => (Re.cls (fun c => c != '[' && c != '<')).m s c k)
      (fun s2 c2 => reUnits.m s2 (c2.put "name" (s0.take (s0.length - s2.length))) (fun s' c => some (s', c)))
      s0.length s0 Caps.empty = some (s', c') := h
  obtain ⟨n, t, e, hnb, hk, hshort⟩ := lazy_cls_shortest _ _ hlz
  obtain ⟨s2, c2, hr, hk2⟩ := m_sound _ _ _ _ _ hk
  simp only [Option.some.injEq, Prod.mk.injEq] at hk2
  obtain ⟨rfl, rfl⟩ := hk2
  obtain ⟨b', w', d', et, hb', hd', hw', hcaps⟩ := run_units (by rfl) hr
  obtain ⟨u', hwr, -⟩ := brackets_clean hw'
  refine ⟨n, u', w', ?_, hw', hwr, s.takeWhile isSpaceU, b', d', ?_, htw, hb', hd', ?_⟩
  · rw [hcaps "name" (by decide)]
    simp [Caps.put, e]
  · refine hsplit.trans ?_
    rw [e, et]; simp
  · refine ⟨fun h => by simpa using hnb _ h, fun h => by simpa using hnb _ h, ?_, ?_⟩
    · intro x hx
      apply head_dropWhile s x
      rw [hs0, e]
      cases n with
      | nil => simp at hx
      | cons y n => simpa using hx
    · intro x hx
      rw [List.getLast?_eq_some_iff] at hx
      obtain ⟨u1, hu1⟩ := hx
      have := hshort u1 x [] hu1
      cases hsp : isSpaceU x with
      | false => rfl
      | true =>
        exfalso
        obtain ⟨c3, hr3⟩ := run_units_intro (c := Caps.empty.put "name" (s0.take (s0.length - (x :: t).length)))
          (b := x :: b') (w := w') (d := d') (fun y hy => by
            rcases List.mem_cons.1 hy with rfl | hy
            · exact hsp
            · exact hb' y hy) hd' hwr
        have h4 := m_complete _ hr3 (fun s' c => some (s', c)) rfl
        have e5 : x :: b' ++ w' ++ d' = [x] ++ t := by rw [et]; simp
        rw [e5] at h4
        simp only [List.cons_append, List.nil_append] at this h4
        rw [this] at h4
        simp at h4

/-- The form determines the name and the units. -/
private theorem withUnits_unique {s n n' : Str} {u u' : Option Str} (h : WithUnits s n u) (h' : WithUnits s n' u') :
    n = n' ∧ u = u' := by
  let br : Char → Bool := fun c => c != '[' && c != '<'
  have nobr : ∀ {a n b : Str}, Blank a → IsName n → Blank b → ∀ x ∈ a ++ n ++ b, br x = true := by
    intro a n b ha hn hb x hx
    simp only [List.append_assoc, List.mem_append] at hx
    have blk : isSpaceU x = true → br x = true := by
      intro hx
      simp only [br, Bool.and_eq_true, bne_iff_ne]
      constructor <;> rintro rfl <;> exact absurd hx (by decide)
    rcases hx with hx | hx | hx
    · exact blk (ha x hx)
    · simp only [br, Bool.and_eq_true, bne_iff_ne]
      exact ⟨fun e => hn.square (e ▸ hx), fun e => hn.angle (e ▸ hx)⟩
    · exact blk (hb x hx)
  have tw : ∀ {p q : Str}, (∀ x ∈ p, br x = true) → (∀ x, q.head? = some x → br x = false) →
      (p ++ q).takeWhile br = p ∧ (p ++ q).dropWhile br = q := by
    intro p q hp hq
    induction p with
    | nil =>
      cases q with
      | nil => exact ⟨rfl, rfl⟩
      | cons x q => simp [List.takeWhile_cons, List.dropWhile_cons, hq x rfl]
    | cons x p ih =>
      obtain ⟨i1, i2⟩ := ih (fun y hy => hp y (by simp [hy]))
      simp [List.takeWhile_cons, List.dropWhile_cons, hp x (by simp), i1, i2]
  -- the name
  have nameOf : ∀ {n u}, WithUnits s n u → n = stripBy isSpaceU (s.takeWhile br) ∧
      ∃ w d, s.dropWhile br = (if u = none then [] else w ++ d) ∧ Writes u w ∧ Blank d := by
    rintro n u ⟨a, b, w, d, rfl, ha, hb, hd, hn, hw⟩
    cases u with
    | none =>
      cases hw
      have hbl := nobr (a := a) (n := n) (b := b ++ d) ha hn (blank_append hb hd)
      have := tw hbl (q := []) (by simp)
      have e : a ++ n ++ b ++ [] ++ d = a ++ n ++ (b ++ d) ++ [] := by simp
      rw [e, this.1, this.2]
      exact ⟨(stripBy_padded ha (blank_append hb hd) hn.first hn.last).symm, [], d, by simp, .none, hd⟩
    | some v =>
      have hbl := nobr (a := a) (n := n) (b := b) ha hn hb
      have hq : ∀ x, (w ++ d).head? = some x → br x = false := by
        intro x hx
        have : w.head? = some x := by
          cases hw <;> simpa using hx
        rcases writes_head hw x this with rfl | rfl <;> rfl
      have := tw hbl hq
      have e : a ++ n ++ b ++ w ++ d = a ++ n ++ b ++ (w ++ d) := by simp
      rw [e, this.1, this.2]
      exact ⟨(stripBy_padded ha hb hn.first hn.last).symm, w, d, by simp, hw, hd⟩
  obtain ⟨e1, w, d, e2, hw, hd⟩ := nameOf h
  obtain ⟨e1', w', d', e2', hw', hd'⟩ := nameOf h'
  refine ⟨by rw [e1, e1'], ?_⟩
  rw [e2] at e2'
  cases hw with
  | none =>
    cases hw' with
    | none => rfl
    | square => simp at e2'
    | angle => simp at e2'
  | square v hv =>
    cases hw' with
    | none => simp at e2'
    | angle => simp at e2'
    | square v' hv' =>
      simp only [reduceCtorEq, if_false, List.cons_append, List.append_assoc, List.nil_append, List.cons.injEq, true_and] at e2'
      congr 1
      have cut : ∀ (p q : Str), ']' ∉ p → (p ++ ']' :: q).takeWhile (fun c => c != ']') = p := by
        intro p q hp
        induction p with
        | nil => rfl
        | cons x p ih =>
          simp only [List.mem_cons, not_or] at hp
          have : (x != ']') = true := by simpa using fun e => hp.1 e.symm
          simp [List.takeWhile_cons, this, ih hp.2]
      rw [← cut v d hv, e2', cut v' d' hv']
  | angle v hv =>
    cases hw' with
    | none => simp at e2'
    | square => simp at e2'
    | angle v' hv' =>
      simp only [reduceCtorEq, if_false, List.cons_append, List.append_assoc, List.nil_append, List.cons.injEq, true_and] at e2'
      congr 1
      have cut : ∀ (p q : Str), Blank q → ((p ++ '>' :: q).reverse.dropWhile isSpaceU) = '>' :: p.reverse := by
        intro p q hq
        have : (p ++ '>' :: q).reverse = q.reverse ++ '>' :: p.reverse := by simp
        rw [this, dropWhile_blank (fun x hx => hq x (by simpa using hx))]
        rfl
      have := cut v d hd
      rw [e2', cut v' d' hd'] at this
      simp only [List.cons.injEq, true_and, List.reverse_inj] at this
      exact this.symm

/-- C59. A text parses to a name and units exactly when it is this name and these units in square or
angle brackets (or no units), with any white space around and between them; anything else is refused.
Missing: units with a `)` in angle brackets, which are refused, see `C59_parenthesis_refuted`. -/
theorem C59_parse_partial (s name : Str) (units : Option Str) :
    parseValueWithUnits s = some (name, units) ↔ WithUnits s name units := by
  have sound : ∀ name units, parseValueWithUnits s = some (name, units) → WithUnits s name units := by
    intro name units h
    unfold parseValueWithUnits at h
    cases hm : reValueUnits.match? s with
    | none => rw [hm] at h; simp at h
    | some r =>
      obtain ⟨s', c'⟩ := r
      obtain ⟨n, u, w, h1, h2, -, a, b, d, e, ha, hb, hd, hn⟩ := value_sound hm
      obtain ⟨v, hv, ev⟩ := brackets_clean h2
      rw [hm] at h
      simp only [h1, Option.getD_some, Option.some.injEq, Prod.mk.injEq] at h
      obtain ⟨rfl, h⟩ := h
      have : v = units := by rw [← h, ← ev]
      subst this
      exact ⟨a, b, w, d, e, ha, hb, hd, hn, hv⟩
  refine ⟨sound name units, ?_⟩
  intro h
  have hs := value_intro h
  cases hp : parseValueWithUnits s with
  | none =>
    unfold parseValueWithUnits at hp
    obtain ⟨r, hr⟩ := Option.isSome_iff_exists.1 hs
    rw [hr] at hp
    simp at hp
  | some r =>
    obtain ⟨n', u'⟩ := r
    obtain ⟨rfl, rfl⟩ := withUnits_unique h (sound n' u' hp)
    rfl

/-- C59 fails for units with a closing parenthesis in angle brackets: they are refused. -/
theorem C59_parenthesis_refuted (name u : Str) (hn : IsName name) (h1 : ')' ∈ u) :
    parseValueWithUnits (name ++ '<' :: u ++ ['>']) = none := by
  cases hp : parseValueWithUnits (name ++ '<' :: u ++ ['>']) with
  | none => rfl
  | some r =>
    exfalso
    obtain ⟨n, v⟩ := r
    obtain ⟨a, b, w, d, e, ha, hb, hd, hn', hw⟩ := (C59_parse_partial _ _ _).1 hp
    -- the first bracket is `<`
    have first : ∀ (p q p' q' : Str) (x x' : Char), (∀ y ∈ p, y ≠ '[' ∧ y ≠ '<') → (∀ y ∈ p', y ≠ '[' ∧ y ≠ '<') →
        (x = '[' ∨ x = '<') → (x' = '[' ∨ x' = '<') → p ++ x :: q = p' ++ x' :: q' → x = x' ∧ q = q' := by
      intro p q p' q' x x' hp hp' hx hx' e
      induction p generalizing p' with
      | nil =>
        cases p' with
        | nil => simpa using e
        | cons y p' =>
          simp only [List.nil_append, List.cons_append, List.cons.injEq] at e
          have := hp' y (by simp)
          rw [← e.1] at this
          rcases hx with rfl | rfl <;> simp at this
      | cons y p ih =>
        cases p' with
        | nil =>
          simp only [List.nil_append, List.cons_append, List.cons.injEq] at e
          have := hp y (by simp)
          rw [e.1] at this
          rcases hx' with rfl | rfl <;> simp at this
        | cons y' p' =>
          simp only [List.cons_append, List.cons.injEq] at e
          exact ih p' (fun z hz => hp z (by simp [hz])) (fun z hz => hp' z (by simp [hz])) e.2
    have nb : ∀ y ∈ a ++ n ++ b, y ≠ '[' ∧ y ≠ '<' := by
      intro x hx
      simp only [List.append_assoc, List.mem_append] at hx
      have blk : isSpaceU x = true → x ≠ '[' ∧ x ≠ '<' := by
        intro hx
        constructor <;> rintro rfl <;> exact absurd hx (by decide)
      rcases hx with hx | hx | hx
      · exact blk (ha x hx)
      · exact ⟨fun e => hn'.square (e ▸ hx), fun e => hn'.angle (e ▸ hx)⟩
      · exact blk (hb x hx)
    have nn : ∀ y ∈ name, y ≠ '[' ∧ y ≠ '<' := fun x hx => ⟨fun e => hn.square (e ▸ hx), fun e => hn.angle (e ▸ hx)⟩
    cases hw with
    | none =>
      have : '<' ∈ a ++ n ++ b ++ d := by
        have : a ++ n ++ b ++ [] ++ d = a ++ n ++ b ++ d := by simp
        rw [← this, ← e]; simp
      rcases List.mem_append.1 this with h | h
      · exact (nb _ h).2 rfl
      · exact absurd (hd _ h) (by decide)
    | square v hv =>
      have e' : name ++ '<' :: (u ++ ['>']) = (a ++ n ++ b) ++ '[' :: (v ++ [']'] ++ d) := by simpa using e
      have := (first _ _ _ _ _ _ nn nb (.inr rfl) (.inl rfl) e').1
      exact absurd this (by decide)
    | angle v hv =>
      have e' : name ++ '<' :: (u ++ ['>']) = (a ++ n ++ b) ++ '<' :: (v ++ ['>'] ++ d) := by simpa using e
      have e2 := (first _ _ _ _ _ _ nn nb (.inr rfl) (.inr rfl) e').2
      have : ')' ∈ v ++ ['>'] ++ d := by rw [← e2]; simp [h1]
      simp only [List.append_assoc, List.mem_append, List.mem_singleton] at this
      rcases this with h | h | h
      · exact hv h
      · exact absurd h (by decide)
      · exact absurd (hd _ h) (by decide)

example : parseValueWithUnits " foo   bar  <bar/krow>\n".toList = some ("foo   bar".toList, some "bar/krow".toList) ∧
    parseValueWithUnits "ok but [bad units".toList = none ∧ parseValueWithUnits "".toList = some ([], none) ∧
    parseValueWithUnits "speed <m/(s)>".toList = none := ⟨rfl, rfl, rfl, rfl⟩
example : IsName "foo bar".toList := ⟨by decide, by decide, by decide, by decide⟩

end Props
