import Verif.Spec.Elsewhere
import Verif.Props.Shifted
import Verif.Props.PlainLasso
import Verif.Props.Sheet
/-
C163: what is elsewhere on a sheet makes no difference to a capture.
-/
namespace Props
open Py Model Spec

/-- The sheets have full cells alike among some cells. -/
private def AlikeOn (m m' : Mat) (P : Coords → Prop) : Prop := ∀ p, P p → (FullAt m p ↔ FullAt m' p)

private theorem else_opposite {m m' : Mat} {dn dn' p : Coords} {moves : List Dir} {P : Prop} (h : AlikeOn m m' (Seen m moves P p))
    {d1 : Dir} {d2 : Option Dir} (hm : Moves moves d1 d2) (hd : MarginOf m dn) (hd' : MarginOf m' dn')
    (h1 : 0 ≤ p.row) (h2 : 0 ≤ p.col) : targetOpposite m' dn' p moves = targetOpposite m dn p moves := by
  cases hr : targetOpposite m dn p moves with
  | ok t =>
    obtain ⟨k2, k1, e, f, n⟩ := (C33_first_full m dn p moves d1 d2 hm hd h1 h2 t).1 hr
    refine (C33_first_full m' dn' _ moves d1 d2 hm hd' h1 h2 _).2 ⟨k2, k1, e, (h t (e ▸ .walked _ _ _ _ hm n)).1 f, ?_⟩
    intro j2 j1 hj hc
    refine n j2 j1 hj ((h _ (.walked _ _ _ _ hm (fun i2 i1 hi => n i2 i1 ?_))).2 hc)
    omega
  | error e =>
    have c := C33_fails_iff_none m dn p moves d1 d2 hm hd h1 h2
    have c' := C33_fails_iff_none m' dn' p moves d1 d2 hm hd' h1 h2
    have hn := c.1.1 ⟨e, hr⟩
    obtain ⟨e', he'⟩ := c'.1.2 (fun k2 k1 hc => hn k2 k1 ((h _ (.walked _ _ _ _ hm (fun _ _ _ => hn _ _))).2 hc))
    rw [he', c'.2 e' he', c.2 e hr]

private theorem else_run {m m' : Mat} {p : Coords} {moves : List Dir} {P : Prop} (h : AlikeOn m m' (Seen m moves P p)) (hP : P) {d : Dir}
    {k : Nat} (hd : d ∈ moves) (hr : RunEnds m p d k) : RunEnds m' p d k := by
  refine ⟨fun i hi => ?_, fun hc => ?_⟩
  · exact (h _ (.run d i hP hd (fun j hj => hr.1 j (by omega)))).1 (hr.1 i hi)
  · exact hr.2 ((h _ (.run d (k + 1) hP hd (fun j hj => hr.1 j (by omega)))).2 hc)

private theorem else_same {m m' : Mat} {dn dn' p : Coords} {moves : List Dir} {P : Prop} (h : AlikeOn m m' (Seen m moves P p)) (hP : P)
    {d1 : Dir} {d2 : Option Dir} (hm : Moves moves d1 d2) (hd : MarginOf m dn) (hd' : MarginOf m' dn')
    (hf : FullAt m p) : targetSame m' dn' p moves = targetSame m dn p moves := by
  have hf' := (h p .landing).1 hf
  cases hm with
  | one d =>
    obtain ⟨k, r, e⟩ := C34_one_move m dn p d1 hd hf
    obtain ⟨k', r', e'⟩ := C34_one_move m' dn' _ d1 hd' hf'
    rw [e, e', C34_run_end_unique m' _ d1 k' k r' (else_run h hP (by simp) r)]
  | two d e hp =>
    obtain ⟨k, l, r, s, g⟩ := C34_two_moves m dn p d1 e hp hd hf
    obtain ⟨k', l', r', s', g'⟩ := C34_two_moves m' dn' _ d1 e hp hd' hf'
    rw [g, g', C34_run_end_unique m' _ d1 k' k r' (else_run h hP (by simp) r),
      C34_run_end_unique m' _ e l' l s' (else_run h hP (by simp) s)]

private theorem full_pos {m : Mat} {p : Coords} (h : FullAt m p) : 0 ≤ p.row ∧ 0 ≤ p.col := by
  obtain ⟨i, j, rfl, _⟩ := h
  exact ⟨by simp, by simp⟩

/-- From the landing cell on, for either edge. -/
private theorem else_land {m m' : Mat} {dn dn' p : Coords} {moves : List Dir} (P : Prop) [Decidable P]
    (h : AlikeOn m m' (Seen m moves P p)) {d1 : Dir} {d2 : Option Dir} (hm : Moves moves d1 d2) (hd : MarginOf m dn)
    (hd' : MarginOf m' dn') (h1 : 0 ≤ p.row ∧ 0 ≤ p.col) :
    (if stateAt m' p then (if P then targetSame m' dn' p moves else .ok p) else targetOpposite m' dn' p moves) =
      (if stateAt m p then (if P then targetSame m dn p moves else .ok p) else targetOpposite m dn p moves) ∧
    ∀ t, (if stateAt m p then (if P then targetSame m dn p moves else .ok p) else targetOpposite m dn p moves) = .ok t →
      (0 ≤ t.row ∧ 0 ≤ t.col) ∧ EndsAt m P p (some moves) t := by
  by_cases hs : stateAt m p = true
  · have hf := (stateAt_iff h1.1 h1.2).1 hs
    have hs' : stateAt m' p = true := (stateAt_iff h1.1 h1.2).2 ((h p .landing).1 hf)
    rw [if_pos hs, if_pos hs']
    by_cases hP : P
    · rw [if_pos hP, if_pos hP]
      refine ⟨else_same h hP hm hd hd' hf, fun t ht => ?_⟩
      cases hm with
      | one d =>
        obtain ⟨k, r, e⟩ := C34_one_move m dn p d1 hd hf
        rw [e] at ht; cases ht
        exact ⟨full_pos (r.1 k (Nat.le_refl _)), .run _ _ hP r⟩
      | two d e hp =>
        obtain ⟨k, l, r, s, g⟩ := C34_two_moves m dn p d1 e hp hd hf
        rw [g] at ht; cases ht
        refine ⟨?_, .runs _ _ _ _ hP r s⟩
        have x := full_pos (r.1 k (Nat.le_refl _))
        have y := full_pos (s.1 l (Nat.le_refl _))
        revert x y hp
        cases d1 <;> cases e <;> simp [stepsFrom, unit, Perp] <;> omega
    · rw [if_neg hP, if_neg hP]
      exact ⟨rfl, fun t ht => by cases ht; exact ⟨h1, .stays _ hf hP⟩⟩
  · have hnf : ¬ FullAt m p := fun c => hs ((stateAt_iff h1.1 h1.2).2 c)
    have hs' : ¬ stateAt m' p = true := fun c => hnf ((h p .landing).2 ((stateAt_iff h1.1 h1.2).1 c))
    rw [if_neg hs, if_neg hs']
    refine ⟨else_opposite h hm hd hd' h1.1 h1.2, fun t ht => ?_⟩
    have hf := (C33_first_full m dn p moves d1 d2 hm hd h1.1 h1.2 t).1 ht
    obtain ⟨k2, k1, e, f, n⟩ := hf
    exact ⟨full_pos f, .first _ _ _ _ hnf hm ⟨k2, k1, e, f, n⟩⟩

private theorem adj_around {r s : Rect} (hw : WellRect r) (h : Within r s) {d : Dir} {p : Coords} (hp : AdjLine r d p) : Around s p := by
  unfold WellRect Within at *
  unfold Around InRect
  by_cases hc : s.r1 ≤ p.row ∧ p.row ≤ s.r2 ∧ s.c1 ≤ p.col ∧ p.col ≤ s.c2
  · exact .inl hc
  · refine .inr ⟨d, ?_⟩
    cases d <;> simp only [AdjLine] at hp ⊢ <;> omega

private theorem else_expand1 {m m' : Mat} {s r : Rect} (h : AlikeOn m m' (Around s)) (hw : WellRect r) (hr : Within r s) (d : Dir) :
    expand1 m' r d = expand1 m r d := by
  by_cases hl : LineFull m r d
  · obtain ⟨p, hp, hf⟩ := hl
    rw [expand1_of_full hw ⟨p, hp, hf⟩, expand1_of_full hw ⟨p, hp, (h p (adj_around hw hr hp)).1 hf⟩]
  · rw [expand1_of_empty hw hl, expand1_of_empty hw]
    rintro ⟨p, hp, hf⟩
    exact hl ⟨p, hp, (h p (adj_around hw hr hp)).2 hf⟩

private theorem else_round {m m' : Mat} {s : Rect} (h : AlikeOn m m' (Around s)) : ∀ (dirs : List Dir) {r : Rect}, WellRect r →
    Within (expandRound m dirs r) s → expandRound m' dirs r = expandRound m dirs r := by
  intro dirs
  induction dirs with
  | nil => intro r _ _; rfl
  | cons d ds ih =>
    intro r hw hs
    have hs' : Within (expandRound m ds (expand1 m r d)) s := hs
    have e := else_expand1 h hw (sub_trans (expand1_sub hw (m := m) (d := d)) (sub_trans (round_sub ds (expand1_well hw)) hs')) d
    have := ih (expand1_well hw (m := m) (d := d)) hs'
    simp only [expandRound, List.foldl_cons, e] at this ⊢
    exact this

private theorem else_repeat {m m' : Mat} {s : Rect} (h : AlikeOn m m' (Around s)) (dirs : List Dir) : ∀ (n : Nat) {r : Rect}, WellRect r →
    Within (expandRepeat m dirs n r) s → expandRepeat m' dirs n r = expandRepeat m dirs n r := by
  intro n
  induction n with
  | zero => intro r _ _; rfl
  | succ n ih =>
    intro r hw hs
    have hin : Within (expandRound m dirs r) s := by
      simp only [expandRepeat] at hs
      split at hs
      · rename_i e; rw [e]; exact hs
      · exact sub_trans (repeat_sub dirs n (round_well dirs hw)) hs
    simp only [expandRepeat] at hs ⊢
    rw [else_round h dirs hw hin]
    split
    · rfl
    · rename_i e
      rw [if_neg e] at hs
      exact ih (round_well dirs hw) hs

private theorem else_group {m m' : Mat} {s : Rect} (h : AlikeOn m m' (Around s)) (g : ExpGroup) {r : Rect} (hw : WellRect r)
    (hs : Within (expandGroup m r g) s) : expandGroup m' r g = expandGroup m r g := by
  cases hg : g.times with
  | some n =>
    simp only [expandGroup, hg, Option.getD_some] at hs ⊢
    exact else_repeat h g.dirs n hw hs
  | none =>
    obtain ⟨N, _, h1, _, h2⟩ := C35_unlimited_terminates m g.dirs r hw
    obtain ⟨N', _, h1', _, h2'⟩ := C35_unlimited_terminates m' g.dirs _ hw
    have eg : g = ⟨g.dirs, none⟩ := by cases g; simp only at hg; rw [hg]
    rw [eg] at hs ⊢
    rw [h2, ← h1 (max N N') (by omega)] at hs
    rw [h2, h2', ← h1 (max N N') (by omega), ← h1' (max N N') (by omega)]
    exact else_repeat h g.dirs _ hw hs

private theorem groups_sub {m : Mat} : ∀ (gs : List ExpGroup) {r : Rect}, WellRect r →
    Within r (gs.foldl (expandGroup m) r) ∧ WellRect (gs.foldl (expandGroup m) r) := by
  intro gs
  induction gs with
  | nil => intro r hw; exact ⟨sub_refl r, hw⟩
  | cons g gs ih =>
    intro r hw
    have hg : WellRect (expandGroup m r g) := repeat_well _ _ hw
    exact ⟨sub_trans (repeat_sub _ _ hw) (ih hg).1, (ih hg).2⟩

private theorem else_groups {m m' : Mat} {s : Rect} (h : AlikeOn m m' (Around s)) : ∀ (gs : List ExpGroup) {r : Rect}, WellRect r →
    Within (gs.foldl (expandGroup m) r) s → gs.foldl (expandGroup m') r = gs.foldl (expandGroup m) r := by
  intro gs
  induction gs with
  | nil => intro r _ _; rfl
  | cons g gs ih =>
    intro r hw hs
    have hg : WellRect (expandGroup m r g) := repeat_well _ _ hw
    rw [List.foldl_cons, List.foldl_cons, else_group h g hw (sub_trans (groups_sub gs hg).1 hs)]
    exact ih hg hs

/-- C163. The rectangle that is expanded to depends on nothing but the cells in it and those next to its sides. -/
theorem C163_expanded (m m' : Mat) (a b : Coords) (ha : 0 ≤ a.row ∧ 0 ≤ a.col) (hb : 0 ≤ b.row ∧ 0 ≤ b.col) (gs : List ExpGroup)
    (h : ∀ p, Around (between (expandRect m a b gs).1 (expandRect m a b gs).2) p → (FullAt m p ↔ FullAt m' p)) :
    expandRect m' a b gs = expandRect m a b gs := by
  have hw : WellRect (sortRect a b) := by simp only [WellRect, sortRect]; omega
  have hs := (groups_sub (m := m) gs hw).2
  simp only [expandRect] at h ⊢
  rw [else_groups (s := gs.foldl (expandGroup m) (sortRect a b)) ?_ gs hw (sub_refl _)]
  intro p hp
  refine h p ?_
  have : between ⟨(gs.foldl (expandGroup m) (sortRect a b)).r1, (gs.foldl (expandGroup m) (sortRect a b)).c1⟩
      ⟨(gs.foldl (expandGroup m) (sortRect a b)).r2, (gs.foldl (expandGroup m) (sortRect a b)).c2⟩ = gs.foldl (expandGroup m) (sortRect a b) := by
    generalize gs.foldl (expandGroup m) (sortRect a b) = s at hs
    unfold WellRect at hs
    cases s
    simp only [between] at *
    simp [hs]
  rw [this]; exact hp

/-- Where the margins count, they are these, and those of both sheets. -/
private def KnownEnds (margins : Option (Coords × Coords)) (up dn : Coords) : Prop := ∀ p, margins = some p → p = (up, dn)

private theorem place_else {Number : Str → Int → Prop} {f : Str → Option Int}
    (hN : (Number = RowNumber ∧ f = row2num) ∨ (Number = ColNumber ∧ f = col2num)) {s : Str} {ends : Option (Int × Int)} {base : Option Int}
    {v : Int} (h : PlaceIs Number ends base s v) (up dn : Int) (hk : ∀ p, ends = some p → p = (up, dn)) :
    resolveCoord f s up dn base = .ok v := by
  have hf : f = row2num ∨ f = col2num := hN.imp (·.2) (·.2)
  cases h with
  | dot b e => rw [e]; rfl
  | upper u d e => cases hk _ e; rfl
  | lower u d e => cases hk _ e; rfl
  | number _ n h0 hn =>
    have hi : ∀ (hp : pyInt s = some n), resolveCoord f s up dn base = .ok (n - 1) := by
      intro hp
      rw [C32_numbers s n hp up dn base f hf, if_neg (by omega), if_pos h0]
    rcases hN with ⟨rfl, rfl⟩ | ⟨rfl, rfl⟩
    · exact hi hn
    · rcases hn with hp | ⟨h1, h2, rfl⟩
      · exact hi hp
      · exact C32_letters s h1 h2 up dn base
  | fromEnd _ n u d e h0 h1 hn =>
    cases hk _ e
    have hi : ∀ (hp : pyInt s = some n), resolveCoord f s up dn base = .ok (dn + n + 1) := by
      intro hp
      rw [C32_numbers s n hp up dn base f hf, if_neg (by omega), if_neg (by omega), show dn + 1 + n = dn + n + 1 by omega]
    rcases hN with ⟨rfl, rfl⟩ | ⟨rfl, rfl⟩
    · exact hi hn
    · rcases hn with hp | ⟨h1, h2, rfl⟩
      · exact hi hp
      · omega

private theorem lands_cell {e : Edge} {margins : Option (Coords × Coords)} {base : Option Coords} {l : Coords} (h : Lands e margins base l)
    (up dn : Coords) (hk : KnownEnds margins up dn) : resolveCell e.land up dn base = .ok l := by
  cases l
  refine (C32_cell _ _ _ _ _ _).2 ⟨place_else (.inl ⟨rfl, rfl⟩) h.row _ _ ?_, place_else (.inr ⟨rfl, rfl⟩) h.col _ _ ?_⟩ <;>
  · intro p hp
    cases margins with
    | none => cases hp
    | some q => cases hk q rfl; cases hp; rfl

private theorem lands_pos {e : Edge} {margins : Option (Coords × Coords)} {base : Option Coords} {l : Coords} (h : Lands e margins base l)
    (hu : ∀ p, margins = some p → (0 ≤ p.1.row ∧ 0 ≤ p.1.col) ∧ (0 ≤ p.2.row ∧ 0 ≤ p.2.col))
    (hb : ∀ c, base = some c → 0 ≤ c.row ∧ 0 ≤ c.col) : 0 ≤ l.row ∧ 0 ≤ l.col := by
  obtain ⟨h1, h2⟩ := h
  generalize e.land.row = x at h1
  generalize e.land.col = y at h2
  generalize l.row = i at h1 ⊢
  generalize l.col = j at h2 ⊢
  constructor
  · cases h1 with
    | dot b e =>
      cases base with
      | none => cases e
      | some c => cases e; exact (hb c rfl).1
    | number _ n h0 => omega
    | upper u d e =>
      cases margins with
      | none => cases e
      | some c => cases e; exact (hu c rfl).1.1
    | lower u d e =>
      cases margins with
      | none => cases e
      | some c => cases e; exact (hu c rfl).2.1
    | fromEnd => assumption
  · cases h2 with
    | dot b e =>
      cases base with
      | none => cases e
      | some c => cases e; exact (hb c rfl).2
    | number _ n h0 => omega
    | upper u d e =>
      cases margins with
      | none => cases e
      | some c => cases e; exact (hu c rfl).1.2
    | lower u d e =>
      cases margins with
      | none => cases e
      | some c => cases e; exact (hu c rfl).2.2
    | fromEnd => assumption

private theorem else_rect (m m' : Mat) (up dn up' dn' : Coords) (hd : MarginOf m dn) (hd' : MarginOf m' dn') (first : Edge) (second : Option Edge)
    (gs : List ExpGroup) (base : Option Coords) (hb : ∀ c, base = some c → 0 ≤ c.row ∧ 0 ≤ c.col)
    (hm : ∀ e ms, e = first ∨ second = some e → e.mov = some ms → ∃ d1 d2, Moves ms d1 d2)
    (margins : Option (Coords × Coords)) (hk : ∀ p, margins = some p → p = (up, dn) ∧ p = (up', dn') ∧ 0 ≤ p.1.row ∧ 0 ≤ p.1.col)
    (l : Coords) (hl : Lands first margins base l)
    (hl2 : ∀ e, second = some e → ∀ t, ∃ l2, Lands e margins (some t) l2)
    (h1 : ∀ p, EdgesSee m first second margins base p → (FullAt m p ↔ FullAt m' p))
    (h2 : ∀ st nd, resolveCaptureRect m up dn first second gs base = .ok (st, some nd) → ∀ p, Around (between st nd) p → (FullAt m p ↔ FullAt m' p)) :
    resolveCaptureRect m' up' dn' first second gs base = resolveCaptureRect m up dn first second gs base ∧
      ∀ st nd, resolveCaptureRect m up dn first second gs base = .ok (st, nd) →
        (0 ≤ st.row ∧ 0 ≤ st.col) ∧ ∀ c, nd = some c → 0 ≤ c.row ∧ 0 ≤ c.col := by
  have hk1 : KnownEnds margins up dn := fun p h => (hk p h).1
  have hk2 : KnownEnds margins up' dn' := fun p h => (hk p h).2.1
  have hu : ∀ p, margins = some p → (0 ≤ p.1.row ∧ 0 ≤ p.1.col) ∧ (0 ≤ p.2.row ∧ 0 ≤ p.2.col) := by
    intro p h
    have h1 := hk p h
    have h2 : p.2 = dn := by rw [h1.1]
    rw [h2]
    exact ⟨h1.2.2, hd.1, hd.2.2.1⟩
  have hp := lands_pos hl hu hb
  have s1 : resolveSt m' up' dn' first base = resolveSt m up dn first base ∧
      ∀ t, resolveSt m up dn first base = .ok t → (0 ≤ t.row ∧ 0 ≤ t.col) ∧ EndsAt m (FirstGoesOn first) l first.mov t := by
    unfold resolveSt
    rw [lands_cell hl _ _ hk1, lands_cell hl _ _ hk2]
    simp only
    cases hmv : first.mov with
    | none => exact ⟨rfl, fun t ht => by cases ht; exact ⟨hp, .unmoved⟩⟩
    | some ms =>
      obtain ⟨d1, d2, hms⟩ := hm first ms (.inl rfl) hmv
      have := else_land (m := m) (m' := m') (dn := dn) (dn' := dn') (p := l) (moves := ms) (first.mod = some '+')
        (fun p hs => h1 p (.first l ms p hl hmv hs)) hms hd hd' hp
      exact this
  unfold resolveCaptureRect at h2 ⊢
  rw [s1.1]
  cases hs : resolveSt m up dn first base with
  | error e => exact ⟨rfl, fun st nd h => by cases h⟩
  | ok t =>
    rw [hs] at h2
    obtain ⟨ht, hte⟩ := s1.2 t hs
    have pos : ∀ q, (0 ≤ q.row ∧ 0 ≤ q.col) → (0 ≤ (expandRect m t q gs).1.row ∧ 0 ≤ (expandRect m t q gs).1.col) ∧
        (0 ≤ (expandRect m t q gs).2.row ∧ 0 ≤ (expandRect m t q gs).2.col) := by
      intro q hq
      have hw : WellRect (sortRect t q) := by simp only [WellRect, sortRect]; omega
      obtain ⟨w1, w2, w3, w4⟩ := (groups_sub (m := m) gs hw).2
      simp only [expandRect]
      omega
    have fin : ∀ q, (0 ≤ q.row ∧ 0 ≤ q.col) →
        (∀ st nd, (Except.ok ((expandRect m t q gs).1, some (expandRect m t q gs).2) : Except PyErr (Coords × Option Coords)) = .ok (st, some nd) →
          ∀ p, Around (between st nd) p → (FullAt m p ↔ FullAt m' p)) → expandRect m' t q gs = expandRect m t q gs := by
      intro q hq hh
      exact C163_expanded m m' t q ht hq gs (hh _ _ rfl)
    cases hsec : second with
    | none =>
      rw [hsec] at h2
      simp only [Option.getD_none] at h2 ⊢
      split
      · rename_i hg
        simp only [if_pos hg] at h2
        rw [fin t ht h2]
        exact ⟨rfl, fun st nd h => by cases h; exact ⟨(pos t ht).1, fun c hc => by cases hc; exact (pos t ht).2⟩⟩
      · exact ⟨rfl, fun st nd h => by cases h; exact ⟨ht, fun c hc => by cases hc⟩⟩
    | some e =>
      rw [hsec] at h2
      obtain ⟨l2, hl2⟩ := hl2 e hsec t
      have hp2 := lands_pos hl2 hu (fun c hc => by cases hc; exact ht)
      have s2 : resolveNd m' up' dn' e t = resolveNd m up dn e t ∧ ∀ q, resolveNd m up dn e t = .ok q → 0 ≤ q.row ∧ 0 ≤ q.col := by
        unfold resolveNd
        rw [lands_cell hl2 _ _ hk1, lands_cell hl2 _ _ hk2]
        simp only
        cases hmv : e.mov with
        | none => exact ⟨rfl, fun t ht => by cases ht; exact hp2⟩
        | some ms =>
          obtain ⟨d1, d2, hms⟩ := hm e ms (.inr hsec) hmv
          have := else_land (m := m) (m' := m') (dn := dn) (dn' := dn') (p := l2) (moves := ms)
            (e.mod = some '+' ∨ (e.land = ⟨['.'], ['.']⟩ ∧ e.mod ≠ some '?'))
            (fun p hs => h1 p (.second l t e l2 ms p hl hte hsec hl2 hmv hs)) hms hd hd' hp2
          exact ⟨this.1, fun q hq => (this.2 q hq).1⟩
      simp only [s2.1]
      cases hn : resolveNd m up dn e t with
      | error x => exact ⟨rfl, fun st nd h => by cases h⟩
      | ok q =>
        simp only [hn, Option.getD_some] at h2 ⊢
        split
        · rename_i hg
          simp only [if_pos hg] at h2
          rw [fin q (s2.2 q hn) h2]
          have := pos q (s2.2 q hn)
          exact ⟨rfl, fun st nd h => by cases h; exact ⟨this.1, fun c hc => by cases hc; exact this.2⟩⟩
        · have := s2.2 q hn
          refine ⟨rfl, fun st nd h => ?_⟩
          cases h
          simp only [sortRect]
          exact ⟨by omega, fun c hc => by cases hc; simp only; omega⟩

/-- C163. What is captured depends on nothing but the cells that the edges look at, those captured and those next to them,
when the edges are given by numbers, letters and dots, or by anything if the margins are the same: a sheet with full cells alike there, wherever else it has some,
gives the same rectangle or fails with the same error. -/
theorem C163_rect (m m' : Mat) (up dn up' dn' : Coords) (hd : MarginOf m dn) (hd' : MarginOf m' dn') (first : Edge) (second : Option Edge)
    (gs : List ExpGroup) (base : Option Coords) (hb : ∀ c, base = some c → 0 ≤ c.row ∧ 0 ≤ c.col)
    (hm : ∀ e ms, e = first ∨ second = some e → e.mov = some ms → ∃ d1 d2, Moves ms d1 d2)
    (margins : Option (Coords × Coords)) (hk : ∀ p, margins = some p → p = (up, dn) ∧ p = (up', dn') ∧ 0 ≤ p.1.row ∧ 0 ≤ p.1.col)
    (l : Coords) (hl : Lands first margins base l)
    (hl2 : ∀ e, second = some e → ∀ t, ∃ l2, Lands e margins (some t) l2)
    (h1 : ∀ p, EdgesSee m first second margins base p → (FullAt m p ↔ FullAt m' p))
    (h2 : ∀ st nd, resolveCaptureRect m up dn first second gs base = .ok (st, some nd) → ∀ p, Around (between st nd) p → (FullAt m p ↔ FullAt m' p)) :
    resolveCaptureRect m' up' dn' first second gs base = resolveCaptureRect m up dn first second gs base :=
  (else_rect m m' up dn up' dn' hd hd' first second gs base hb hm margins hk l hl hl2 h1 h2).1

private theorem else_moves {r : RefText} (h : r.Ok) :
    ∀ e ms, e = r.first ∨ r.second = some e → e.mov = some ms → ∃ d1 d2, Moves ms d1 d2 := by
  have key : ∀ (e : EdgeText) (ms : List Dir), MovOk e.mov → e.meant.mov = some ms → ∃ d1 d2, Moves ms d1 d2 := by
    intro e ms ho he
    obtain ⟨cell, mov⟩ := e
    simp only [EdgeText.meant] at he
    cases mov with
    | none => cases he
    | some p =>
      obtain ⟨s, x⟩ := p
      simp only [Option.map_some, Option.some.injEq] at he
      have h1 := ho.1
      have h2 := dirsOf_moves h1
      rw [he] at h2
      revert h1 h2
      generalize upper s = q
      intro h1 h2
      simp only [allMoves, List.map_cons, List.map_nil, List.mem_cons, List.not_mem_nil, or_false] at h1
      rcases h1 with rfl | rfl | rfl | rfl | rfl | rfl | rfl | rfl | rfl | rfl | rfl | rfl <;> cases h2
      all_goals first
        | exact ⟨_, _, .one _⟩
        | exact ⟨_, _, .two _ _ (by decide)⟩
  intro e ms he hm
  rcases he with rfl | he
  · unfold RefText.first at hm
    cases hst : r.st with
    | none => rw [hst] at hm; cases hm
    | some e => rw [hst] at hm; exact key e ms (h.st e hst).2 hm
  · unfold RefText.second at he
    cases hst : r.st with
    | none =>
      cases hr : r.range with
      | none => rw [hst, hr] at he; cases he; cases hm
      | some q =>
        obtain ⟨n, ex⟩ := q
        cases n with
        | none => rw [hst, hr] at he; cases he; cases hm
        | some n => rw [hst, hr] at he; cases he; exact key n ms (h.nd n ex hr).2 hm
    | some f =>
      cases hr : r.range with
      | none => rw [hst, hr] at he; cases he
      | some q =>
        obtain ⟨n, ex⟩ := q
        cases n with
        | none => rw [hst, hr] at he; cases he; cases hm
        | some n => rw [hst, hr] at he; cases he; exact key n ms (h.nd n ex hr).2 hm

private theorem else_outcome {S : Type} (A : SheetApi S) (noEmpty lone : Bool) (s s' : S)
    (mk mk' : Option Coords → Option Coords → Doc → Lasso S)
    (hmk : ∀ st nd v, (mk st nd v).st = st ∧ (mk st nd v).nd = nd ∧ (mk st nd v).values = v)
    (hmk' : ∀ st nd v, (mk' st nd v).st = st ∧ (mk' st nd v).nd = nd ∧ (mk' st nd v).values = v)
    (rect : Except PyErr (Coords × Option Coords))
    (hread : ∀ st nd, rect = .ok (st, nd) → A.readRect s' st nd = A.readRect s st nd) :
    SameLassos (plainOutcome A noEmpty lone s mk rect) (plainOutcome A noEmpty lone s' mk' rect) := by
  unfold plainOutcome
  cases rect with
  | ok p =>
    obtain ⟨st, nd⟩ := p
    simp only [hread st nd rfl]
    cases A.readRect s st nd with
    | error e => exact .error e
    | ok v =>
      refine .values _ _ ?_ ?_ ?_
      · rw [(hmk _ _ _).2.2, (hmk' _ _ _).2.2]
      · rw [(hmk _ _ _).1, (hmk' _ _ _).1]
      · rw [(hmk _ _ _).2.1, (hmk' _ _ _).2.1]
  | error e =>
    cases e
    case emptyCapture =>
      cases noEmpty
      · refine .values _ _ ?_ ?_ ?_
        · rw [(hmk _ _ _).2.2, (hmk' _ _ _).2.2]
        · rw [(hmk _ _ _).1, (hmk' _ _ _).1]
        · rw [(hmk _ _ _).2.1, (hmk' _ _ _).2.1]
      · exact .error _
    all_goals exact .error _

private theorem up_pos (m : Mat) : 0 ≤ (marginCoords m).1.row ∧ 0 ≤ (marginCoords m).1.col := by
  unfold marginCoords
  cases m.full with
  | nil => decide
  | cons p ps => exact ⟨Int.natCast_nonneg _, Int.natCast_nonneg _⟩

private theorem else_lasso {S : Type} (R R' : Ranger S) (A : SheetApi S) (jsonLoads : Str → Option Doc) (u : Str) (r : RefText)
    (items : List ExpItem) (sheet0 sheet0' : Option S) (base : Option Coords) (s s' : S) (m m' : Mat) (up dn up' dn' : Coords)
    (hopts : R'.baseOpts = R.baseOpts) (hu : '#' ∉ u)
    (hr : r.Ok ∧ r.filt = none ∧ r.text ≠ [] ∧ NoCurly (u ++ r.text) ∧ r.Expands items)
    (hg : R.fetch (if u = [] then none else some u) r.sheetName sheet0 = .ok s)
    (hg' : R'.fetch (if u = [] then none else some u) r.sheetName sheet0' = .ok s')
    (hs : A.states s = .ok m) (hs' : A.states s' = .ok m') (hmg : A.margins s = .ok (up, dn)) (hmg' : A.margins s' = .ok (up', dn'))
    (hd : MarginOf m dn) (hd' : MarginOf m' dn') (hb : ∀ c, base = some c → 0 ≤ c.row ∧ 0 ≤ c.col)
    (margins : Option (Coords × Coords)) (hk : ∀ p, margins = some p → p = (up, dn) ∧ p = (up', dn') ∧ 0 ≤ p.1.row ∧ 0 ≤ p.1.col)
    (l : Coords) (hl : Lands r.first margins base l) (hl2 : ∀ e, r.second = some e → ∀ t, ∃ l2, Lands e margins (some t) l2)
    (o : Except PyErr (FRes S)) (ho : R.doLasso A jsonLoads (u ++ '#' :: r.text) { sheet := sheet0, baseCoords := base } = o)
    (rows cols rows' cols' : Nat) (hsize : SameSizeOrWithin rows cols rows' cols' o)
    (htab : ∀ st nd, ∃ v, A.readRect s st (some nd) = .ok v)
    (hread : ∀ (st : Coords) (nd : Option Coords), (0 ≤ st.row ∧ 0 ≤ st.col) → (∀ c, nd = some c → st.row ≤ c.row ∧ st.col ≤ c.col) →
      CapturedFrom o st nd →
      (rows' = rows ∧ cols' = cols) ∨ (((nd.getD st).row < rows ∧ (nd.getD st).row < rows') ∧ ((nd.getD st).col < cols ∧ (nd.getD st).col < cols')) →
      A.readRect s' st nd = A.readRect s st nd)
    (hfail : ∀ (st : Coords) (e : PyErr), rows' = rows → cols' = cols → A.readRect s st none = .error e → A.readRect s' st none = .error e)
    (h1 : ∀ p, EdgesSee m r.first r.second margins base p → (FullAt m p ↔ FullAt m' p))
    (h2 : ∀ st nd, CapturedFrom o st (some nd) → ∀ p, Around (between st nd) p → (FullAt m p ↔ FullAt m' p)) :
    SameLassos o (R'.doLasso A jsonLoads (u ++ '#' :: r.text) { sheet := sheet0', baseCoords := base }) := by
  obtain ⟨p1, p2, p3, p4, p5⟩ := hr
  obtain ⟨mk, hmk, e1⟩ := doLasso_plain R A jsonLoads u r items sheet0 base s hu p4 p1 p2 p3 p5 hg
  obtain ⟨mk', hmk', e2⟩ := doLasso_plain R' A jsonLoads u r items sheet0' base s' hu p4 p1 p2 p3 p5 hg'
  have e3 : rectOn A s r.first r.second (items.map ExpItem.meaning) base =
      resolveCaptureRect m up dn r.first r.second (items.map ExpItem.meaning) base := by
    unfold rectOn; rw [hs, hmg]
  have e4 : rectOn A s' r.first r.second (items.map ExpItem.meaning) base =
      resolveCaptureRect m' up' dn' r.first r.second (items.map ExpItem.meaning) base := by
    unfold rectOn; rw [hs', hmg']
  rw [e3] at e1
  rw [e4] at e2
  have cap : ∀ st nd v, resolveCaptureRect m up dn r.first r.second (items.map ExpItem.meaning) base = .ok (st, nd) →
      A.readRect s st nd = .ok v → CapturedFrom o st nd := by
    intro st nd v hrc hrd
    rw [← ho, e1, hrc]
    simp only [plainOutcome, hrd]
    exact ⟨_, rfl, (hmk _ _ _).1, (hmk _ _ _).2.1⟩
  have only : ∀ st nd, resolveCaptureRect m up dn r.first r.second (items.map ExpItem.meaning) base = .ok (st, nd) →
      ∀ st2 nd2, CapturedFrom o st2 nd2 → st2 = st ∧ nd2 = nd := by
    rintro st nd hrc st2 nd2 ⟨la, hla, q1, q2⟩
    rw [← ho, e1, hrc] at hla
    simp only [plainOutcome] at hla
    cases hrd : A.readRect s st nd with
    | error e => rw [hrd] at hla; cases hla
    | ok v =>
      rw [hrd] at hla
      cases hla
      rw [(hmk _ _ _).1] at q1
      rw [(hmk _ _ _).2.1] at q2
      cases q1
      exact ⟨rfl, q2.symm⟩
  obtain ⟨k1, k2⟩ := else_rect m m' up dn up' dn' hd hd' r.first r.second (items.map ExpItem.meaning) base hb (else_moves p1) margins hk l hl hl2 h1
    (fun st nd hrc => by
      obtain ⟨v, hv⟩ := htab st nd
      exact h2 st nd (cap st (some nd) v hrc hv))
  rw [← ho, e1, e2, k1, hopts]
  refine else_outcome A _ _ s s' mk mk' hmk hmk' _ ?_
  intro st nd hrc
  have hnn := k2 st nd hrc
  cases hrd : A.readRect s st nd with
  | ok v =>
    rw [← hrd]
    refine hread st nd hnn.1 ?_ (cap st nd v hrc hrd) ?_
    · intro c hc
      subst hc
      have := C37_ordered m up dn _ _ _ _ st c hrc
      exact ⟨this.1, this.2.1⟩
    · rcases hsize with h | ⟨st2, nd2, hc, h⟩
      · exact .inl h
      · obtain ⟨rfl, rfl⟩ := only st nd hrc st2 nd2 hc
        exact .inr h
  | error e =>
    cases nd with
    | some nd => obtain ⟨v, hv⟩ := htab st nd; rw [hv] at hrd; cases hrd
    | none =>
      rcases hsize with h | ⟨st2, nd2, ⟨la, hla, -⟩, h⟩
      · exact hfail st e h.1 h.2 hrd
      · rw [← ho, e1, hrc] at hla
        simp only [plainOutcome, hrd] at hla
        cases hla

private theorem range_beyond (f : Nat → Bool) (k n : Nat) (hk : k ≤ n) (h : ∀ i, f i = true → i < k) :
    (List.range n).filter f = (List.range k).filter f := by
  obtain ⟨d, rfl⟩ : ∃ d, n = k + d := ⟨n - k, by omega⟩
  rw [List.range_add, List.filter_append]
  have : ((List.range d).map (k + ·)).filter f = [] := by
    rw [List.filter_eq_nil_iff]
    intro x hx hf
    obtain ⟨y, -, rfl⟩ := List.mem_map.1 hx
    have := h _ hf
    omega
  rw [this, List.append_nil]

private theorem slice_within {n : Nat} {a b : Int} (ha : 0 ≤ a) (hb : 0 ≤ b) (h : b < n) :
    sliceIdx n a (b + 1) = (List.range (b + 1).toNat).filter (fun i => decide (a.toNat ≤ i)) := by
  unfold sliceIdx
  rw [range_beyond _ (b + 1).toNat n (by omega)]
  · apply List.filter_congr
    intro i hi
    rw [List.mem_range] at hi
    rw [sliceBound_nonneg ha, sliceBound_nonneg (by omega)]
    simp only [decide_eq_decide]
    omega
  · intro i hi
    rw [decide_eq_true_eq, sliceBound_nonneg ha, sliceBound_nonneg (by omega)] at hi
    omega

private theorem slice_same {n n' : Nat} {a b : Int} (ha : 0 ≤ a) (hb : a ≤ b) (h : n' = n ∨ (b < n ∧ b < n')) :
    sliceIdx n' a (b + 1) = sliceIdx n a (b + 1) ∧ ∀ i ∈ sliceIdx n a (b + 1), a ≤ (i : Int) ∧ (i : Int) ≤ b := by
  constructor
  · rcases h with rfl | h
    · rfl
    · rw [slice_within ha (by omega) h.1, slice_within ha (by omega) h.2]
  · intro i hi
    unfold sliceIdx at hi
    rw [List.mem_filter, decide_eq_true_eq, sliceBound_nonneg ha, sliceBound_nonneg (by omega), List.mem_range] at hi
    omega

private theorem seq_same {n n' : Nat} {a : Int} (ha : 0 ≤ a) (h : n' = n ∨ (a < n ∧ a < n')) : seqIndex n' a = seqIndex n a := by
  rcases h with rfl | h
  · rfl
  · rw [seqIndex_nonneg ha, seqIndex_nonneg ha, if_pos h.1, if_pos h.2]

private theorem in_between {st nd : Coords} (h1 : st.row ≤ nd.row) (h2 : st.col ≤ nd.col) {p : Coords} (hr : st.row ≤ p.row ∧ p.row ≤ nd.row)
    (hc : st.col ≤ p.col ∧ p.col ≤ nd.col) : InRect (between st nd) p := by
  unfold between
  rw [if_pos h1, if_pos h1, if_pos h2, if_pos h2]
  exact ⟨hr.1, hr.2, hc.1, hc.2⟩

/-- C163. Lassoing from an array, with edges given by numbers, letters or dots, or by anything if both sheets have the same
margins, and with moves and expansions if any: from another array where the cells that the edges look at, those captured and those next to them are full or empty alike, and
those captured have the same values, the same values are captured from the same rectangle, or the lasso fails with the
same error, whatever the other cells are, and however large the arrays are beyond what is captured. -/
theorem C163_lasso (R R' : Ranger Grid) (jsonLoads : Str → Option Doc) (u : Str) (r : RefText) (items : List ExpItem)
    (sheet0 sheet0' : Option Grid) (base : Option Coords) (g g' : Grid) (m m' : Mat) (hs : g.states = .ok m) (hs' : g'.states = .ok m')
    (hopts : R'.baseOpts = R.baseOpts) (hu : '#' ∉ u)
    (hr : r.Ok ∧ r.filt = none ∧ r.text ≠ [] ∧ NoCurly (u ++ r.text) ∧ r.Expands items)
    (hg : R.fetch (if u = [] then none else some u) r.sheetName sheet0 = .ok g)
    (hg' : R'.fetch (if u = [] then none else some u) r.sheetName sheet0' = .ok g')
    (hb : ∀ c, base = some c → 0 ≤ c.row ∧ 0 ≤ c.col)
    (margins : Option (Coords × Coords)) (hk : ∀ p, margins = some p → arrayApi.margins g = .ok p ∧ arrayApi.margins g' = .ok p)
    (hl : ∃ l, Lands r.first margins base l) (hl2 : ∀ e, r.second = some e → ∀ t, ∃ l, Lands e margins (some t) l)
    (o : Except PyErr (FRes Grid)) (ho : R.doLasso arrayApi jsonLoads (u ++ '#' :: r.text) { sheet := sheet0, baseCoords := base } = o)
    (hsize : SameSizeOrWithin g.rows g.cols g'.rows g'.cols o)
    (h1 : ∀ p, EdgesSee m r.first r.second margins base p → (FullAt m p ↔ FullAt m' p))
    (h2 : ∀ st nd, CapturedFrom o st (some nd) → ∀ p, Around (between st nd) p → (FullAt m p ↔ FullAt m' p))
    (h3 : ∀ st nd, CapturedFrom o st nd → ∀ i j : Nat, InRect (between st (nd.getD st)) ⟨i, j⟩ → g'.val i j = g.val i j) :
    SameLassos o (R'.doLasso arrayApi jsonLoads (u ++ '#' :: r.text) { sheet := sheet0', baseCoords := base }) := by
  have dims : ∀ {g : Grid} {m : Mat}, g.states = .ok m → ¬ (g.rows = 0 ∨ g.cols = 0) ∧ m.rows = g.rows ∧ m.cols = g.cols := by
    intro g m hm
    have hne : ¬ (g.rows = 0 ∨ g.cols = 0) := by
      intro e; simp [Grid.states, e] at hm
    refine ⟨hne, ?_⟩
    rw [Grid.states, if_neg hne] at hm; cases hm; exact ⟨rfl, rfl⟩
  obtain ⟨d1, d2, d3⟩ := dims hs
  obtain ⟨d1', d2', d3'⟩ := dims hs'
  obtain ⟨l, hl⟩ := hl
  have mg : arrayApi.margins g = .ok ((marginCoords m).1, (marginCoords m).2) := by simp only [arrayApi, hs]; rfl
  have mg' : arrayApi.margins g' = .ok ((marginCoords m').1, (marginCoords m').2) := by simp only [arrayApi, hs']; rfl
  refine else_lasso R R' arrayApi jsonLoads u r items sheet0 sheet0' base g g' m m' (marginCoords m).1 (marginCoords m).2
    (marginCoords m').1 (marginCoords m').2 hopts hu hr hg hg' hs hs' mg mg'
    (C38_lower_margin_ok m (by omega) (by omega)) (C38_lower_margin_ok m' (by omega) (by omega)) hb margins
    (fun p hp => by
      obtain ⟨k1, k2⟩ := hk p hp
      cases mg.symm.trans k1
      exact ⟨rfl, Except.ok.inj (k2.symm.trans mg'), up_pos m⟩) l hl hl2 o ho
    g.rows g.cols g'.rows g'.cols hsize ?_ ?_ ?_ h1 h2
  · intro st nd
    exact ⟨_, by simp only [arrayApi, Grid.readRect]; rw [if_neg d1]⟩
  · intro st nd hn hord hcap hsz
    have h3 := h3 st nd hcap
    simp only [arrayApi, Grid.readRect]
    rw [if_neg d1, if_neg d1']
    cases nd with
    | none =>
      simp only [Option.getD_none] at hsz h3
      simp only
      rw [seq_same (n := g.rows) (n' := g'.rows) hn.1 (by omega), seq_same (n := g.cols) (n' := g'.cols) hn.2 (by omega),
        seqIndex_nonneg hn.1, seqIndex_nonneg hn.2]
      by_cases c1 : st.row < g.rows
      · by_cases c2 : st.col < g.cols
        · rw [if_pos c1, if_pos c2]
          simp only
          rw [h3 st.row.toNat st.col.toNat (in_between (Int.le_refl _) (Int.le_refl _) (by simp only; omega) (by simp only; omega))]
        · rw [if_pos c1, if_neg c2]
      · rw [if_neg c1]
    | some nd =>
      have hord := hord nd rfl
      simp only [Option.getD_some] at hsz h3
      have s1 := slice_same (n := g.rows) (n' := g'.rows) hn.1 hord.1 (by omega)
      have s2 := slice_same (n := g.cols) (n' := g'.cols) hn.2 hord.2 (by omega)
      simp only
      rw [s1.1, s2.1]
      congr 2
      apply List.map_congr_left
      intro i hi
      apply List.map_congr_left
      intro j hj
      exact h3 i j (in_between hord.1 hord.2 (s1.2 i hi) (s2.2 j hj))
  · intro st e q1 q2
    simp only [arrayApi, Grid.readRect]
    rw [if_neg d1, if_neg d1', q1, q2]
    intro h
    cases hi : seqIndex g.rows st.row with
    | none => rw [hi] at h; exact h
    | some i =>
      cases hj : seqIndex g.cols st.col with
      | none => rw [hi, hj] at h; exact h
      | some j => rw [hi, hj] at h; cases h

/-- C163. The same for the sheets of Excel files, none of which is without cells. -/
theorem C163_excel_lasso (dateOf : Nat → Doc) (nan : Doc) (R R' : Ranger XlGrid) (jsonLoads : Str → Option Doc) (u : Str) (r : RefText)
    (items : List ExpItem) (sheet0 sheet0' : Option XlGrid) (base : Option Coords) (g g' : XlGrid)
    (hne : (0 < g.rows ∧ 0 < g.cols) ∧ (0 < g'.rows ∧ 0 < g'.cols))
    (hopts : R'.baseOpts = R.baseOpts) (hu : '#' ∉ u)
    (hr : r.Ok ∧ r.filt = none ∧ r.text ≠ [] ∧ NoCurly (u ++ r.text) ∧ r.Expands items)
    (hg : R.fetch (if u = [] then none else some u) r.sheetName sheet0 = .ok g)
    (hg' : R'.fetch (if u = [] then none else some u) r.sheetName sheet0' = .ok g')
    (hb : ∀ c, base = some c → 0 ≤ c.row ∧ 0 ≤ c.col)
    (margins : Option (Coords × Coords))
    (hk : ∀ p, margins = some p → (xlrdApi dateOf nan).margins g = .ok p ∧ (xlrdApi dateOf nan).margins g' = .ok p)
    (hl : ∃ l, Lands r.first margins base l) (hl2 : ∀ e, r.second = some e → ∀ t, ∃ l, Lands e margins (some t) l)
    (o : Except PyErr (FRes XlGrid))
    (ho : R.doLasso (xlrdApi dateOf nan) jsonLoads (u ++ '#' :: r.text) { sheet := sheet0, baseCoords := base } = o)
    (hsize : SameSizeOrWithin g.rows g.cols g'.rows g'.cols o)
    (h1 : ∀ p, EdgesSee g.states r.first r.second margins base p → (FullAt g.states p ↔ FullAt g'.states p))
    (h2 : ∀ st nd, CapturedFrom o st (some nd) → ∀ p, Around (between st nd) p → (FullAt g.states p ↔ FullAt g'.states p))
    (h3 : ∀ st nd, CapturedFrom o st nd → ∀ i j : Nat, InRect (between st (nd.getD st)) ⟨i, j⟩ → g'.cell i j = g.cell i j) :
    SameLassos o (R'.doLasso (xlrdApi dateOf nan) jsonLoads (u ++ '#' :: r.text) { sheet := sheet0', baseCoords := base }) := by
  have hdn : ∀ {g : XlGrid}, 0 < g.rows ∧ 0 < g.cols → g.dnMargin = .ok ⟨(g.rows : Int) - 1, (g.cols : Int) - 1⟩ := by
    intro g h; unfold XlGrid.dnMargin; rw [if_neg (by omega)]
  obtain ⟨l, hl⟩ := hl
  have mg : ∀ {g : XlGrid}, 0 < g.rows ∧ 0 < g.cols →
      (xlrdApi dateOf nan).margins g = .ok ((marginCoords g.states).1, ⟨(g.rows : Int) - 1, (g.cols : Int) - 1⟩) := by
    intro g h; simp only [xlrdApi, hdn h, getMargins]; rfl
  refine else_lasso R R' (xlrdApi dateOf nan) jsonLoads u r items sheet0 sheet0' base g g' g.states g'.states
    (marginCoords g.states).1 ⟨(g.rows : Int) - 1, (g.cols : Int) - 1⟩
    (marginCoords g'.states).1 ⟨(g'.rows : Int) - 1, (g'.cols : Int) - 1⟩ hopts hu hr hg hg' rfl rfl
    (mg hne.1) (mg hne.2)
    (C38_xlrd_margins g _ (hdn hne.1)).1 (C38_xlrd_margins g' _ (hdn hne.2)).1 hb margins
    (fun p hp => by
      obtain ⟨k1, k2⟩ := hk p hp
      cases (mg hne.1).symm.trans k1
      exact ⟨rfl, Except.ok.inj (k2.symm.trans (mg hne.2)), up_pos g.states⟩) l hl hl2 o ho
    g.rows g.cols g'.rows g'.cols hsize ?_ ?_ ?_ h1 h2
  · intro st nd
    exact ⟨_, rfl⟩
  · intro st nd hn hord hcap hsz
    have h3 := h3 st nd hcap
    simp only [xlrdApi, XlGrid.readRect]
    cases nd with
    | none =>
      simp only [Option.getD_none] at hsz h3
      simp only
      rw [seq_same (n := g.rows) (n' := g'.rows) hn.1 (by omega), seq_same (n := g.cols) (n' := g'.cols) hn.2 (by omega),
        seqIndex_nonneg hn.1, seqIndex_nonneg hn.2]
      by_cases c1 : st.row < g.rows
      · by_cases c2 : st.col < g.cols
        · rw [if_pos c1, if_pos c2]
          simp only
          rw [h3 st.row.toNat st.col.toNat (in_between (Int.le_refl _) (Int.le_refl _) (by simp only; omega) (by simp only; omega))]
        · rw [if_pos c1, if_neg c2]
      · rw [if_neg c1]
    | some nd =>
      have hord := hord nd rfl
      simp only [Option.getD_some] at hsz h3
      simp only
      congr 2
      apply List.map_congr_left
      intro x hx
      apply List.map_congr_left
      intro y hy
      have mem : ∀ {a b z : Int}, z ∈ pyRange a (b + 1) → a ≤ z ∧ z ≤ b := by
        intro a b z hz
        unfold pyRange at hz
        obtain ⟨k, hk, rfl⟩ := List.mem_map.1 hz
        rw [List.mem_range] at hk
        omega
      have hx := mem hx
      have hy := mem hy
      unfold XlGrid.elem
      rw [seq_same (n := g.rows) (n' := g'.rows) (a := x) (by omega) (by omega),
        seq_same (n := g.cols) (n' := g'.cols) (a := y) (by omega) (by omega),
        seqIndex_nonneg (by omega), seqIndex_nonneg (by omega)]
      by_cases c1 : x < g.rows
      · by_cases c2 : y < g.cols
        · rw [if_pos c1, if_pos c2]
          have hc := h3 x.toNat y.toNat (in_between hord.1 hord.2 (by simp only; omega) (by simp only; omega))
          have hst : g'.states.cell x.toNat y.toNat = g.states.cell x.toNat y.toNat := congrArg XlCell.full hc
          simp only [hc, hst]
        · rw [if_pos c1, if_neg c2]
      · rw [if_neg c1]
  · intro st e q1 q2
    simp only [xlrdApi, XlGrid.readRect]
    rw [q1, q2]
    intro h
    cases hi : seqIndex g.rows st.row with
    | none => rw [hi] at h; exact h
    | some i =>
      cases hj : seqIndex g.cols st.col with
      | none => rw [hi, hj] at h; exact h
      | some j => rw [hi, hj] at h; cases h


/-- A table from `B2` to `C3`. -/
private def lone : Grid := ⟨5, 5, fun i j => if (1 ≤ i ∧ i ≤ 2) ∧ (1 ≤ j ∧ j ≤ 2) then .int (10 * i + j) else .null⟩
/-- The same, in a larger array with other cells further away. -/
private def crowd : Grid := ⟨9, 7, fun i j => if (1 ≤ i ∧ i ≤ 2) ∧ (1 ≤ j ∧ j ≤ 2) then .int (10 * i + j) else if 4 ≤ i ∨ 4 ≤ j then .int 7 else .null⟩
/-- The same, with a cell next to the table. -/
private def touched : Grid := ⟨5, 5, fun i j => if (1 ≤ i ∧ i ≤ 2) ∧ (1 ≤ j ∧ j ≤ 3) then .int (10 * i + j) else .null⟩

/-- The reference `B2:..(DR):R`. -/
private def refB2 : RefText :=
  ⟨[], none, some ⟨.a1 "B".toList "2".toList, none⟩, some (some ⟨.a1 ".".toList ".".toList, some ("DR".toList, none)⟩, some "R".toList), none⟩

private def lassoFrom (g : Grid) : Except PyErr (FRes Grid) :=
  Ranger.doLasso ⟨fun _ _ _ => .ok g, [], fun _ => none⟩ arrayApi (fun _ => none) "#B2:..(DR):R".toList {}

private def stNd (o : Except PyErr (FRes Grid)) : Option (Option Coords × Option Coords) :=
  match o with
  | .ok (.lasso l) => some (l.st, l.nd)
  | _ => none

private theorem lone_captured : stNd (lassoFrom lone) = some (some ⟨1, 1⟩, some ⟨2, 2⟩) := by decide +kernel

/-- A cell next to the table does make a difference. -/
example : stNd (lassoFrom touched) = some (some ⟨1, 1⟩, some ⟨2, 3⟩) := by decide +kernel

private def matOf (g : Grid) : Mat := ⟨g.rows, g.cols, fun i j => match g.val i j with | .null => false | _ => true⟩

private theorem lone_full (p : Coords) : FullAt (matOf lone) p ↔ (1 ≤ p.row ∧ p.row ≤ 2) ∧ (1 ≤ p.col ∧ p.col ≤ 2) := by
  constructor
  · rintro ⟨i, j, rfl, hi, hj, hc⟩
    simp only [matOf, lone] at hc
    by_cases h : (1 ≤ i ∧ i ≤ 2) ∧ (1 ≤ j ∧ j ≤ 2)
    · simp only; omega
    · rw [if_neg h] at hc; cases hc
  · intro h
    refine ⟨p.row.toNat, p.col.toNat, ?_, ?_, ?_, ?_⟩
    · cases p; simp only [Coords.mk.injEq] at h ⊢; omega
    · show p.row.toNat < 5; omega
    · show p.col.toNat < 5; omega
    · simp only [matOf, lone]; rw [if_pos (by omega)]

private theorem crowd_alike (p : Coords) (h1 : p.row ≤ 3) (h2 : p.col ≤ 3) : FullAt (matOf lone) p ↔ FullAt (matOf crowd) p := by
  rw [lone_full]
  constructor
  · intro h
    refine ⟨p.row.toNat, p.col.toNat, ?_, ?_, ?_, ?_⟩
    · cases p; simp only [Coords.mk.injEq] at h ⊢; omega
    · show p.row.toNat < 9; omega
    · show p.col.toNat < 7; omega
    · simp only [matOf, crowd]; rw [if_pos (by omega)]
  · rintro ⟨i, j, rfl, hi, hj, hc⟩
    simp only at h1 h2
    simp only [matOf, crowd] at hc
    by_cases h : (1 ≤ i ∧ i ≤ 2) ∧ (1 ≤ j ∧ j ≤ 2)
    · simp only; omega
    · rw [if_neg h, if_neg (by omega)] at hc; cases hc

private theorem lands_B2 : Lands refB2.first none none ⟨1, 1⟩ :=
  ⟨.number _ 2 (by decide) (by unfold RowNumber; decide +kernel), .number _ 2 (by decide) (.inr ⟨by decide, by decide, by decide⟩)⟩

private theorem lands_dots (e : Edge) (he : refB2.second = some e) (t : Coords) : Lands e none (some t) t := by
  cases he
  exact ⟨.dot _ rfl, .dot _ rfl⟩

private theorem lands_one {e : Edge} {base : Option Coords} {l l2 : Coords} (h : Lands e none base l) (h2 : Lands e none base l2) : l2 = l := by
  have h3 := (lands_cell h ⟨0, 0⟩ ⟨0, 0⟩ (fun p hp => by cases hp)).symm.trans (lands_cell h2 ⟨0, 0⟩ ⟨0, 0⟩ (fun p hp => by cases hp))
  cases h3; rfl

private theorem sees_near (p : Coords) (h : EdgesSee (matOf lone) refB2.first refB2.second none none p) : p.row ≤ 3 ∧ p.col ≤ 3 := by
  cases h with
  | first l ms _ h1 h2 _ => cases h2
  | second l t e l2 ms _ h1 h2 h3 h4 h5 h6 =>
    have e1 := lands_one lands_B2 h1
    subst e1
    have e2 := lands_one (lands_dots e h3 t) h4
    subst e2
    cases h3
    cases h5
    have ht : l2 = ⟨1, 1⟩ := by
      have key : ∀ mv, mv = none → EndsAt (matOf lone) (FirstGoesOn refB2.first) ⟨1, 1⟩ mv l2 → l2 = ⟨1, 1⟩ := by
        intro mv hmv h; cases h <;> first | rfl | cases hmv
      exact key _ rfl h2
    subst ht
    cases h6 with
    | landing => decide
    | walked d1 d2 k2 k1 h7 h8 =>
      have here : visited ⟨1, 1⟩ d1 d2 0 0 = ⟨1, 1⟩ := by cases d2 <;> simp [visited, stepsFrom]
      rcases Nat.eq_zero_or_pos k2 with h | h
      · rcases Nat.eq_zero_or_pos k1 with h' | h'
        · subst h h'
          rw [here]
          decide
        · have := h8 0 0 (.inr ⟨h.symm, h'⟩)
          rw [here, lone_full] at this
          exact absurd (by decide) this
      · have := h8 0 0 (.inl h)
        rw [here, lone_full] at this
        exact absurd (by decide) this
    | run d k h7 h8 h9 =>
      have hk : k ≤ 2 := by
        apply Classical.byContradiction
        intro hk
        have := (lone_full _).1 (h9 2 (by omega))
        have hd : d = .D ∨ d = .R := by simpa [dirsMeant, letterDir] using h8
        rcases hd with rfl | rfl <;> simp [stepsFrom, unit] at this
      have hd : d = .D ∨ d = .R := by simpa [dirsMeant, letterDir] using h8
      rcases hd with rfl | rfl <;> simp [stepsFrom, unit] <;> omega

/-- The lasso from the larger array. -/
example : SameLassos (lassoFrom lone) (lassoFrom crowd) := by
  have hcap : ∀ st nd, CapturedFrom (lassoFrom lone) st nd → st = ⟨1, 1⟩ ∧ nd = some ⟨2, 2⟩ := by
    rintro st nd ⟨l, h1, h2, h3⟩
    have := lone_captured
    rw [h1] at this
    simp only [stNd, h2, h3, Option.some.injEq, Prod.mk.injEq] at this
    exact this
  have hok : refB2.Ok := by
    refine ⟨by simp [Spaces, refB2], trivial, ?_, ?_, ?_, trivial, by simp [refB2]⟩
    · intro e he; cases he
      exact ⟨⟨.inl ⟨by decide, by decide⟩, .inl ⟨'2', [], rfl, by decide, by decide, by simp⟩⟩, trivial⟩
    · intro e ex he; cases he
      exact ⟨⟨.inr (by unfold IsSpecial; decide), .inr (by unfold IsSpecial; decide)⟩, by decide, .inl rfl⟩
    · intro nd ex he; cases he
      exact ⟨by decide, by decide⟩
  refine C163_lasso ⟨fun _ _ _ => .ok lone, [], fun _ => none⟩ ⟨fun _ _ _ => .ok crowd, [], fun _ => none⟩ (fun _ => none) [] refB2
    [.run "R".toList] none none none lone crowd (matOf lone) (matOf crowd) rfl rfl rfl (by decide)
    ⟨hok, rfl, by decide, by unfold NoCurly; decide, ?_⟩ rfl rfl (fun c hc => by cases hc) none (fun p hp => by cases hp) ⟨_, lands_B2⟩
    (fun e he t => ⟨t, lands_dots e he t⟩) _ rfl ?_ (fun p hp => crowd_alike p (sees_near p hp).1 (sees_near p hp).2) ?_ ?_
  · exact ⟨(fun it h => by rw [List.mem_singleton] at h; subst h; exact ⟨by decide, by decide⟩), trivial, rfl⟩
  · refine .inr ⟨⟨1, 1⟩, some ⟨2, 2⟩, ?_, by decide, by decide⟩
    have := lone_captured
    cases ho : lassoFrom lone with
    | error e => rw [ho] at this; cases this
    | ok v =>
      cases v with
      | lasso l =>
        rw [ho] at this
        simp only [stNd, Option.some.injEq, Prod.mk.injEq] at this
        exact ⟨l, rfl, this.1, this.2⟩
      | other v => rw [ho] at this; cases this
  · intro st nd hc p hp
    obtain ⟨rfl, h⟩ := hcap _ _ hc
    cases h
    have : p.row ≤ 3 ∧ p.col ≤ 3 := by
      rcases hp with hp | ⟨d, hp⟩
      · simp [InRect, between] at hp; omega
      · cases d <;> simp [AdjLine, between] at hp <;> omega
    exact crowd_alike p this.1 this.2
  · intro st nd hc i j hp
    obtain ⟨rfl, rfl⟩ := hcap _ _ hc
    simp [InRect, between] at hp
    simp only [crowd, lone]
    rw [if_pos (by omega), if_pos (by omega)]

private def sparse : Grid := ⟨4, 2, fun i j => if (i, j) = (0, 0) ∨ (i, j) = (3, 0) then .int i else .null⟩
private def dense : Grid := ⟨4, 2, fun i j => if j = 0 then .int i else .null⟩

/-- The reference `A_`. -/
private def lastA : RefText := ⟨[], none, some ⟨.a1 "A".toList "_".toList, none⟩, none, none⟩

/-- The last cell of a column, in arrays with the same margins but other cells in between. -/
example : SameLassos
    (Ranger.doLasso ⟨fun _ _ _ => .ok sparse, [], fun _ => none⟩ arrayApi (fun _ => none) "#A_".toList {})
    (Ranger.doLasso ⟨fun _ _ _ => .ok dense, [], fun _ => none⟩ arrayApi (fun _ => none) "#A_".toList {}) := by
  have hok : lastA.Ok := by
    refine ⟨by simp [Spaces, lastA], trivial, ?_, by simp [lastA], by simp [lastA], trivial, by simp [lastA]⟩
    intro e he; cases he
    exact ⟨⟨.inl ⟨by decide, by decide⟩, .inr (.inl rfl)⟩, trivial⟩
  have hcap : stNd (Ranger.doLasso ⟨fun _ _ _ => .ok sparse, [], fun _ => none⟩ arrayApi (fun _ => none) "#A_".toList {}) =
      some (some ⟨3, 0⟩, none) := by decide +kernel
  have hcap : ∀ st nd, CapturedFrom (Ranger.doLasso ⟨fun _ _ _ => .ok sparse, [], fun _ => none⟩ arrayApi (fun _ => none) "#A_".toList {}) st nd →
      st = ⟨3, 0⟩ ∧ nd = none := by
    rintro st nd ⟨l, h1, h2, h3⟩
    rw [h1] at hcap
    simp only [stNd, h2, h3, Option.some.injEq, Prod.mk.injEq] at hcap
    exact hcap
  refine C163_lasso ⟨fun _ _ _ => .ok sparse, [], fun _ => none⟩ ⟨fun _ _ _ => .ok dense, [], fun _ => none⟩ (fun _ => none) [] lastA
    [] none none none sparse dense (matOf sparse) (matOf dense) rfl rfl rfl (by decide)
    ⟨hok, rfl, by decide, by unfold NoCurly; decide, rfl⟩ rfl rfl (fun c hc => by cases hc) (some (⟨0, 0⟩, ⟨3, 0⟩))
    (fun p hp => by cases hp; exact ⟨rfl, rfl⟩) ⟨⟨3, 0⟩, .lower _ _ rfl, .number _ 1 (by decide) (.inr ⟨by decide, by decide, by decide⟩)⟩
    (fun e he => by cases he) _ rfl (.inl ⟨rfl, rfl⟩) ?_ ?_ ?_
  · intro p hp
    cases hp with
    | first l ms _ h1 h2 _ => cases h2
    | second l t e l2 ms _ h1 h2 h3 => cases h3
  · intro st nd hc
    cases (hcap _ _ hc).2
  · intro st nd hc i j hp
    obtain ⟨rfl, rfl⟩ := hcap _ _ hc
    simp [InRect, between] at hp
    have hi : i = 3 := by omega
    have hj : j = 0 := by omega
    subst hi hj
    rfl

private def oneCell : XlGrid := ⟨3, 3, fun i j => if (i, j) = (1, 1) then .intNum 5 else .empty⟩
private def fullOf : XlGrid := ⟨6, 4, fun i j => if (i, j) = (1, 1) then .intNum 5 else .error⟩

/-- The reference `B2`. -/
private def justB2 : RefText := ⟨[], none, some ⟨.a1 "B".toList "2".toList, none⟩, none, none⟩

/-- One cell, whatever is around it, on sheets of Excel files. -/
example (dateOf : Nat → Doc) (nan : Doc) (jsonLoads : Str → Option Doc) : SameLassos
    (Ranger.doLasso ⟨fun _ _ _ => .ok oneCell, [], fun _ => none⟩ (xlrdApi dateOf nan) jsonLoads "#B2".toList {})
    (Ranger.doLasso ⟨fun _ _ _ => .ok fullOf, [], fun _ => none⟩ (xlrdApi dateOf nan) jsonLoads "#B2".toList {}) := by
  have hok : justB2.Ok := by
    refine ⟨by simp [Spaces, justB2], trivial, ?_, by simp [justB2], by simp [justB2], trivial, by simp [justB2]⟩
    intro e he; cases he
    exact ⟨⟨.inl ⟨by decide, by decide⟩, .inl ⟨'2', [], rfl, by decide, by decide, by simp⟩⟩, trivial⟩
  have hcap : ∃ l, Ranger.doLasso ⟨fun _ _ _ => .ok oneCell, [], fun _ => none⟩ (xlrdApi dateOf nan) jsonLoads "#B2".toList {} = .ok (.lasso l) ∧
      l.st = some ⟨1, 1⟩ ∧ l.nd = none := ⟨_, rfl, rfl, rfl⟩
  refine C163_excel_lasso dateOf nan ⟨fun _ _ _ => .ok oneCell, [], fun _ => none⟩ ⟨fun _ _ _ => .ok fullOf, [], fun _ => none⟩ jsonLoads []
    justB2 [] none none none oneCell fullOf (by decide) rfl (by decide) ⟨hok, rfl, by decide, by unfold NoCurly; decide, rfl⟩ rfl rfl
    (fun c hc => by cases hc) none (fun p hp => by cases hp) ⟨⟨1, 1⟩, lands_B2⟩ (fun e he => by cases he) _ rfl ?_ ?_ ?_ ?_
  · obtain ⟨l, h1, h2, h3⟩ := hcap
    exact .inr ⟨⟨1, 1⟩, none, ⟨l, h1, h2, h3⟩, by decide, by decide⟩
  · intro p hp
    cases hp with
    | first l ms _ h1 h2 _ => cases h2
    | second l t e l2 ms _ h1 h2 h3 => cases h3
  · rintro st nd ⟨l, h1, h2, h3⟩
    obtain ⟨l', q1, q2, q3⟩ := hcap
    cases q1.symm.trans h1
    rw [h3] at q3; cases q3
  · rintro st nd ⟨l, h1, h2, h3⟩ i j hp
    obtain ⟨l', q1, q2, q3⟩ := hcap
    cases q1.symm.trans h1
    cases q2.symm.trans h2
    rw [q3] at h3; subst h3
    simp [InRect, between] at hp
    simp only [oneCell, fullOf]
    rw [if_pos (by rw [Prod.mk.injEq]; omega), if_pos (by rw [Prod.mk.injEq]; omega)]

end Props
