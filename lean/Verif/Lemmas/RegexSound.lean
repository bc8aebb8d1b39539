import Verif.Lemmas.Regex
set_option linter.unusedSimpArgs false
namespace Py

/-- The matching relation: what a regular expression may do, whatever the order of attempts. -/
inductive Re.Run : Re → Str → Caps → Str → Caps → Prop
  | eps {s c} : Run .eps s c s c
  | cls {p x t c} : p x = true → Run (.cls p) (x :: t) c t c
  | seq {a b s c s1 c1 s2 c2} : Run a s c s1 c1 → Run b s1 c1 s2 c2 → Run (.seq a b) s c s2 c2
  | altL {a b s c s1 c1} : Run a s c s1 c1 → Run (.alt a b) s c s1 c1
  | altR {a b s c s1 c1} : Run b s c s1 c1 → Run (.alt a b) s c s1 c1
  | starNil {a s c} : Run (.star a) s c s c
  | starCons {a s c s1 c1 s2 c2} : Run a s c s1 c1 → s1.length < s.length → Run (.star a) s1 c1 s2 c2 →
      Run (.star a) s c s2 c2
  | lazyNil {a s c} : Run (.lazyStar a) s c s c
  | lazyCons {a s c s1 c1 s2 c2} : Run a s c s1 c1 → s1.length < s.length → Run (.lazyStar a) s1 c1 s2 c2 →
      Run (.lazyStar a) s c s2 c2
  | grp {n a s c s1 c1} : Run a s c s1 c1 → Run (.grp n a) s c s1 (c1.put n (s.take (s.length - s1.length)))
  | backref {n s c t} : c n = some t → t.isPrefixOf s = true → Run (.backref n) s c (s.drop t.length) c
  | eos {s c} : atEnd s = true → Run .eos s c s c

variable {α : Type}

theorem starM_sound {a : Re} (ih : ∀ (s : Str) (c : Caps) (k : Str → Caps → Option α) (x : α),
      a.m s c k = some x → ∃ s' c', Re.Run a s c s' c' ∧ k s' c' = some x)
    (k : Str → Caps → Option α) (n : Nat) : ∀ (s : Str) (c : Caps) (x : α),
    starM (fun s c k => a.m s c k) k n s c = some x → ∃ s' c', Re.Run (.star a) s c s' c' ∧ k s' c' = some x := by
  induction n with
  | zero => intro s c x h; exact ⟨s, c, .starNil, h⟩
  | succ n ihn =>
    intro s c x h
    rw [starM, Option.or_eq_some_iff] at h
    rcases h with h | ⟨_, h⟩
    · obtain ⟨s1, c1, h1, h2⟩ := ih _ _ _ _ h
      split at h2
      · rename_i hl
        obtain ⟨s2, c2, h3, h4⟩ := ihn _ _ _ h2
        exact ⟨s2, c2, .starCons h1 hl h3, h4⟩
      · simp at h2
    · exact ⟨s, c, .starNil, h⟩

theorem lazyM_sound {a : Re} (ih : ∀ (s : Str) (c : Caps) (k : Str → Caps → Option α) (x : α),
      a.m s c k = some x → ∃ s' c', Re.Run a s c s' c' ∧ k s' c' = some x)
    (k : Str → Caps → Option α) (n : Nat) : ∀ (s : Str) (c : Caps) (x : α),
    lazyM (fun s c k => a.m s c k) k n s c = some x → ∃ s' c', Re.Run (.lazyStar a) s c s' c' ∧ k s' c' = some x := by
  induction n with
  | zero => intro s c x h; exact ⟨s, c, .lazyNil, h⟩
  | succ n ihn =>
    intro s c x h
    rw [lazyM, Option.or_eq_some_iff] at h
    rcases h with h | ⟨_, h⟩
    · exact ⟨s, c, .lazyNil, h⟩
    · obtain ⟨s1, c1, h1, h2⟩ := ih _ _ _ _ h
      split at h2
      · rename_i hl
        obtain ⟨s2, c2, h3, h4⟩ := ihn _ _ _ h2
        exact ⟨s2, c2, .lazyCons h1 hl h3, h4⟩
      · simp at h2

/-- The matcher only finds runs. -/
theorem m_sound (a : Re) : ∀ (s : Str) (c : Caps) (k : Str → Caps → Option α) (x : α),
    a.m s c k = some x → ∃ s' c', Re.Run a s c s' c' ∧ k s' c' = some x := by
  induction a with
  | eps => intro s c k x h; exact ⟨s, c, .eps, h⟩
  | cls p =>
    intro s c k x h
    cases s with
    | nil => simp at h
    | cons y t =>
      rw [m_cls_cons] at h
      split at h
      · exact ⟨t, c, .cls ‹_›, h⟩
      · simp at h
  | seq a b iha ihb =>
    intro s c k x h
    obtain ⟨s1, c1, h1, h2⟩ := iha _ _ _ _ h
    obtain ⟨s2, c2, h3, h4⟩ := ihb _ _ _ _ h2
    exact ⟨s2, c2, .seq h1 h3, h4⟩
  | alt a b iha ihb =>
    intro s c k x h
    rw [m_alt, Option.or_eq_some_iff] at h
    rcases h with h | ⟨_, h⟩
    · obtain ⟨s1, c1, h1, h2⟩ := iha _ _ _ _ h
      exact ⟨s1, c1, .altL h1, h2⟩
    · obtain ⟨s1, c1, h1, h2⟩ := ihb _ _ _ _ h
      exact ⟨s1, c1, .altR h1, h2⟩
  | star a ih => intro s c k x h; exact starM_sound ih k _ s c x h
  | lazyStar a ih => intro s c k x h; exact lazyM_sound ih k _ s c x h
  | grp n a ih =>
    intro s c k x h
    obtain ⟨s1, c1, h1, h2⟩ := ih _ _ _ _ h
    exact ⟨s1, _, .grp h1, h2⟩
  | backref n =>
    intro s c k x h
    simp only [Re.m] at h
    cases hc : c n with
    | none => rw [hc] at h; simp at h
    | some t =>
      rw [hc] at h
      simp only at h
      split at h
      · exact ⟨_, c, .backref hc ‹_›, h⟩
      · simp at h
  | eos =>
    intro s c k x h
    rw [m_eos] at h
    split at h
    · exact ⟨s, c, .eos ‹_›, h⟩
    · simp at h

/-- A run that leads to success is not overlooked: some match is found. -/
theorem m_complete (a : Re) : ∀ {s : Str} {c : Caps} {s' : Str} {c' : Caps}, Re.Run a s c s' c' →
    ∀ (k : Str → Caps → Option α), (k s' c').isSome → (a.m s c k).isSome := by
  induction a with
  | eps => intro s c s' c' h k hk; cases h; exact hk
  | cls p => intro s c s' c' h k hk; cases h; rename_i h; simp [h, hk]
  | seq a b iha ihb => intro s c s' c' h k hk; cases h; rename_i h1 h2; exact iha h1 _ (ihb h2 k hk)
  | alt a b iha ihb =>
    intro s c s' c' h k hk
    rw [m_alt, Option.isSome_or, Bool.or_eq_true]
    cases h with
    | altL h => exact .inl (iha h k hk)
    | altR h => exact .inr (ihb h k hk)
  | star a ih =>
    intro s c s' c' h k hk
    have key : ∀ n s c, s.length ≤ n → Re.Run (.star a) s c s' c' →
        (starM (fun s c k => a.m s c k) k n s c).isSome := by
      intro n
      induction n with
      | zero =>
        intro s c hn h
        cases h with
        | starNil => exact hk
        | starCons h1 hl h2 => omega
      | succ n ihn =>
        intro s c hn h
        rw [starM, Option.isSome_or, Bool.or_eq_true]
        cases h with
        | starNil => exact .inr hk
        | starCons h1 hl h2 =>
          left
          apply ih h1
          rw [if_pos hl]
          exact ihn _ _ (by omega) h2
    exact key _ _ _ (Nat.le_refl _) h
  | lazyStar a ih =>
    intro s c s' c' h k hk
    have key : ∀ n s c, s.length ≤ n → Re.Run (.lazyStar a) s c s' c' →
        (lazyM (fun s c k => a.m s c k) k n s c).isSome := by
      intro n
      induction n with
      | zero =>
        intro s c hn h
        cases h with
        | lazyNil => exact hk
        | lazyCons h1 hl h2 => omega
      | succ n ihn =>
        intro s c hn h
        rw [lazyM, Option.isSome_or, Bool.or_eq_true]
        cases h with
        | lazyNil => exact .inl hk
        | lazyCons h1 hl h2 =>
          right
          apply ih h1
          rw [if_pos hl]
          exact ihn _ _ (by omega) h2
    exact key _ _ _ (Nat.le_refl _) h
  | grp n a ih =>
    intro s c s' c' h k hk
    cases h with
    | grp h => exact ih h _ hk
  | backref n =>
    intro s c s' c' h k hk
    cases h with
    | backref h1 h2 => simp only [Re.m, h1, h2, if_true]; exact hk
  | eos =>
    intro s c s' c' h k hk
    cases h with
    | eos h => rw [m_eos, if_pos h]; exact hk

/-- `match` succeeds exactly when there is a run. -/
theorem match_isSome_iff (a : Re) (s : Str) :
    (a.match? s).isSome ↔ ∃ s' c', Re.Run a s Caps.empty s' c' := by
  constructor
  · intro h
    obtain ⟨x, hx⟩ := Option.isSome_iff_exists.1 h
    obtain ⟨s', c', hr, _⟩ := m_sound a _ _ _ _ hx
    exact ⟨s', c', hr⟩
  · rintro ⟨s', c', h⟩
    exact m_complete a h _ rfl

theorem match_run {a : Re} {s s' : Str} {c' : Caps} (h : a.match? s = some (s', c')) :
    Re.Run a s Caps.empty s' c' := by
  obtain ⟨s1, c1, hr, hk⟩ := m_sound a _ _ _ _ h
  simp at hk
  rw [← hk.1, ← hk.2]; exact hr

/-- What is left is a suffix. -/
theorem run_suffix {a : Re} {s s' : Str} {c c' : Caps} (h : Re.Run a s c s' c') : s' <:+ s := by
  induction h with
  | eps => exact List.suffix_refl _
  | cls _ => exact List.suffix_cons _ _
  | seq _ _ h1 h2 => exact h2.trans h1
  | altL _ h => exact h
  | altR _ h => exact h
  | starNil => exact List.suffix_refl _
  | starCons _ _ _ h1 h2 => exact h2.trans h1
  | lazyNil => exact List.suffix_refl _
  | lazyCons _ _ _ h1 h2 => exact h2.trans h1
  | grp _ h => exact h
  | backref _ _ => exact List.drop_suffix _ _
  | eos _ => exact List.suffix_refl _

/-- A repeated class consumes characters of the class. -/
theorem run_star_cls {p : Char → Bool} {s s' : Str} {c c' : Caps} (h : Re.Run (.star (.cls p)) s c s' c') :
    c' = c ∧ ∃ t, s = t ++ s' ∧ ∀ x ∈ t, p x = true := by
  generalize hr : Re.star (.cls p) = r at h
  induction h with
  | starNil => exact ⟨rfl, [], rfl, by simp⟩
  | starCons h1 _ h2 _ ih =>
    cases hr
    cases h1 with
    | cls hp =>
      obtain ⟨rfl, t, e, ht⟩ := ih rfl
      refine ⟨rfl, _ :: t, by rw [e]; rfl, ?_⟩
      intro y hy
      rcases List.mem_cons.1 hy with rfl | hy
      · exact hp
      · exact ht y hy
  | _ => cases hr

theorem run_plus_cls {p : Char → Bool} {s s' : Str} {c c' : Caps} (h : Re.Run (Re.plus (.cls p)) s c s' c') :
    c' = c ∧ ∃ t, t ≠ [] ∧ s = t ++ s' ∧ ∀ x ∈ t, p x = true := by
  cases h with
  | seq h1 h2 =>
    cases h1 with
    | cls hp =>
      obtain ⟨rfl, t, e, ht⟩ := run_star_cls h2
      refine ⟨rfl, _ :: t, by simp, by rw [e]; rfl, ?_⟩
      intro y hy
      rcases List.mem_cons.1 hy with rfl | hy
      · exact hp
      · exact ht y hy

theorem run_cls {p : Char → Bool} {s s' : Str} {c c' : Caps} (h : Re.Run (.cls p) s c s' c') :
    c' = c ∧ ∃ x, s = x :: s' ∧ p x = true := by
  cases h with
  | cls hp => exact ⟨rfl, _, rfl, hp⟩

theorem run_opt {a : Re} {s s' : Str} {c c' : Caps} (h : Re.Run (Re.opt a) s c s' c') :
    Re.Run a s c s' c' ∨ (s' = s ∧ c' = c) := by
  cases h with
  | altL h => exact .inl h
  | altR h => cases h; exact .inr ⟨rfl, rfl⟩

theorem run_grp {n : String} {a : Re} {t s' : Str} {c c' : Caps} (h : Re.Run (.grp n a) (t ++ s') c s' c') :
    ∃ c1, Re.Run a (t ++ s') c s' c1 ∧ c' = c1.put n t := by
  cases h with
  | grp h => exact ⟨_, h, by rw [take_prefix]⟩

/-- The names of the groups. -/
def Re.names : Re → List String
  | .eps => []
  | .cls _ => []
  | .seq a b => a.names ++ b.names
  | .alt a b => a.names ++ b.names
  | .star a => a.names
  | .lazyStar a => a.names
  | .grp n a => n :: a.names
  | .backref _ => []
  | .eos => []

/-- Other groups are left alone. -/
theorem run_names {a : Re} {s s' : Str} {c c' : Caps} (h : Re.Run a s c s' c') (x : String) (hx : x ∉ a.names) :
    c' x = c x := by
  induction h with
  | eps => rfl
  | cls _ => rfl
  | seq _ _ h1 h2 =>
    simp only [Re.names, List.mem_append, not_or] at hx
    rw [h2 hx.2, h1 hx.1]
  | altL _ h => simp only [Re.names, List.mem_append, not_or] at hx; exact h hx.1
  | altR _ h => simp only [Re.names, List.mem_append, not_or] at hx; exact h hx.2
  | starNil => rfl
  | starCons _ _ _ h1 h2 => rw [h2 hx, h1 hx]
  | lazyNil => rfl
  | lazyCons _ _ _ h1 h2 => rw [h2 hx, h1 hx]
  | grp _ h =>
    simp only [Re.names, List.mem_cons, not_or] at hx
    rw [put_other _ _ _ _ hx.1, h hx.2]
  | backref _ _ => rfl
  | eos _ => rfl

/-- Whatever a group of this name captures satisfies `P`. -/
def Re.GrpOk (n : String) (P : Str → Prop) : Re → Prop
  | .eps => True
  | .cls _ => True
  | .seq a b => a.GrpOk n P ∧ b.GrpOk n P
  | .alt a b => a.GrpOk n P ∧ b.GrpOk n P
  | .star a => a.GrpOk n P
  | .lazyStar a => a.GrpOk n P
  | .grp m a => a.GrpOk n P ∧
      (m = n → ∀ s c s' c', Re.Run a s c s' c' → P (s.take (s.length - s'.length)))
  | .backref _ => True
  | .eos => True

theorem grpOk_of_not_mem {n : String} {P : Str → Prop} (a : Re) (h : n ∉ a.names) : a.GrpOk n P := by
  induction a with
  | seq a b iha ihb =>
    simp only [Re.names, List.mem_append, not_or] at h
    exact ⟨iha h.1, ihb h.2⟩
  | alt a b iha ihb =>
    simp only [Re.names, List.mem_append, not_or] at h
    exact ⟨iha h.1, ihb h.2⟩
  | star a ih => exact ih h
  | lazyStar a ih => exact ih h
  | grp m a ih =>
    simp only [Re.names, List.mem_cons, not_or] at h
    exact ⟨ih h.2, fun e => absurd e.symm h.1⟩
  | _ => trivial

theorem run_grpOk {n : String} {P : Str → Prop} {a : Re} {s s' : Str} {c c' : Caps} (h : Re.Run a s c s' c')
    (ha : a.GrpOk n P) (hc : ∀ t, c n = some t → P t) : ∀ t, c' n = some t → P t := by
  induction h with
  | eps => exact hc
  | cls _ => exact hc
  | seq _ _ h1 h2 => exact h2 ha.2 (h1 ha.1 hc)
  | altL _ h => exact h ha.1 hc
  | altR _ h => exact h ha.2 hc
  | starNil => exact hc
  | starCons _ _ _ h1 h2 => exact h2 ha (h1 ha hc)
  | lazyNil => exact hc
  | lazyCons _ _ _ h1 h2 => exact h2 ha (h1 ha hc)
  | @grp m a s c s1 c1 hr h =>
    intro t ht
    by_cases hm : m = n
    · subst hm
      rw [put_same] at ht
      have := ha.2 rfl _ _ _ _ hr
      simp at ht
      rw [← ht]; exact this
    · rw [put_other _ _ _ _ (Ne.symm hm)] at ht
      exact h ha.1 hc t ht
  | backref _ _ => exact hc
  | eos _ => exact hc

end Py
