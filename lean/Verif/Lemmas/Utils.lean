import Verif.Model.Utils
import Verif.Spec.Utils
import Verif.Lemmas.Int
import Verif.Lemmas.Str
import Mathlib.Data.List.Perm.Subperm
namespace Lemmas
open Py Model Spec

theorem lowerChar_eq (c : Char) : lowerChar c = c.toLower := by
  unfold lowerChar Char.toLower
  have e1 : (c.val ≥ 'A'.val ∧ c.val ≤ 'Z'.val) ↔ (0x41 ≤ c.toNat ∧ c.toNat ≤ 0x5a) := by
    simp only [ge_iff_le, UInt32.le_iff_toNat_le]; rfl
  by_cases h : 0x41 ≤ c.toNat ∧ c.toNat ≤ 0x5a
  · rw [if_pos h]
    split
    · apply Char.ext
      rw [UInt32.toNat_inj.symm]
      have hv : (c.toNat + 0x20).isValidChar := by left; omega
      have : (Char.ofNat (c.toNat + 0x20)).toNat = c.toNat + 0x20 := by
        rw [Char.ofNat, dif_pos hv]; rfl
      have h2 : (Char.ofNat (c.toNat + 0x20)).val.toNat = c.toNat + 0x20 := this
      rw [h2]
      simp only [UInt32.toNat_add]
      show c.toNat + 32 = (c.toNat + 32) % 2^32
      omega
    · rename_i hh; exact absurd (e1.2 h) hh
  · rw [if_neg h]
    split
    · rename_i hh; exact absurd (e1.1 hh) h
    · rfl

theorem lower_eq (s : Str) : lower s = s.map Char.toLower := by
  unfold lower; congr 1; funext c; exact lowerChar_eq c

theorem stripBy_padded {ws : Char → Bool} {pre core post : Str}
    (h1 : ∀ c ∈ pre, ws c = true) (h2 : ∀ c ∈ post, ws c = true)
    (h3 : ∀ c, core.head? = some c → ws c = false) (h4 : ∀ c, core.getLast? = some c → ws c = false) :
    stripBy ws (pre ++ core ++ post) = core := by
  have drop : ∀ {a b : Str}, (∀ c ∈ a, ws c = true) → (a ++ b).dropWhile ws = b.dropWhile ws := by
    intro a b ha
    induction a with
    | nil => rfl
    | cons x a ih =>
      simp only [List.cons_append, List.dropWhile, ha x (by simp)]
      exact ih (fun c hc => ha c (by simp [hc]))
  cases core with
  | nil =>
    unfold stripBy
    rw [List.append_nil, drop h1]
    have : post.dropWhile ws = [] := by
      have := drop (a := post) (b := []) h2
      simpa using this
    simp [this]
  | cons x core =>
    unfold stripBy
    rw [List.append_assoc, drop h1, dropWhile_of_head (s := x :: core ++ post) (by simpa using h3),
      List.reverse_append, drop (by simpa using h2),
      dropWhile_of_head (s := (x :: core).reverse) (by rw [List.head?_reverse]; exact h4), List.reverse_reverse]

theorem stripBy_spec (ws : Char → Bool) (s : Str) : ∃ pre post,
    s = pre ++ stripBy ws s ++ post ∧ (∀ c ∈ pre, ws c = true) ∧ (∀ c ∈ post, ws c = true) ∧
    (∀ c, (stripBy ws s).head? = some c → ws c = false) ∧
    (∀ c, (stripBy ws s).getLast? = some c → ws c = false) := by
  have tw : ∀ (l : Str), ∀ c ∈ l.takeWhile ws, ws c = true := by
    intro l
    induction l with
    | nil => simp
    | cons x l ih =>
      intro c hc
      by_cases hx : ws x = true
      · rw [List.takeWhile_cons_of_pos hx] at hc
        rcases List.mem_cons.1 hc with rfl | hc
        · exact hx
        · exact ih c hc
      · rw [List.takeWhile_cons_of_neg (by simpa using hx)] at hc
        simp at hc
  have hd : ∀ (l : Str) c, (l.dropWhile ws).head? = some c → ws c = false := by
    intro l
    induction l with
    | nil => simp
    | cons x l ih =>
      intro c hc
      by_cases hx : ws x = true
      · rw [List.dropWhile_cons_of_pos hx] at hc; exact ih c hc
      · rw [List.dropWhile_cons_of_neg (by simpa using hx)] at hc
        simp only [List.head?_cons, Option.some.injEq] at hc
        subst hc; simpa using hx
  refine ⟨s.takeWhile ws, ((s.dropWhile ws).reverse.takeWhile ws).reverse, ?_, tw s, ?_, ?_, ?_⟩
  · unfold stripBy
    rw [List.append_assoc, ← List.reverse_append, List.takeWhile_append_dropWhile, List.reverse_reverse,
      List.takeWhile_append_dropWhile]
  · intro c hc
    exact tw _ c (by simpa using hc)
  · intro c hc
    have key : ∀ t : Str, (∀ c, t.head? = some c → ws c = false) →
        ∀ c, ((t.reverse.dropWhile ws).reverse).head? = some c → ws c = false := by
      intro t ht c hc
      have happ : t = (t.reverse.dropWhile ws).reverse ++ (t.reverse.takeWhile ws).reverse := by
        rw [← List.reverse_append, List.takeWhile_append_dropWhile, List.reverse_reverse]
      apply ht
      rw [happ, List.head?_append, hc]; rfl
    exact key _ (hd s) c hc
  · intro c hc
    unfold stripBy at hc
    rw [List.getLast?_reverse] at hc
    exact hd _ c hc

theorem stripBy_eq_nil {ws : Char → Bool} {s : Str} : stripBy ws s = [] ↔ ∀ c ∈ s, ws c = true := by
  constructor
  · intro h
    obtain ⟨pre, post, e, h1, h2, -, -⟩ := stripBy_spec ws s
    rw [h] at e
    intro c hc
    rw [e] at hc
    simp only [List.append_nil, List.mem_append] at hc
    exact hc.elim (h1 c) (h2 c)
  · intro h
    have := stripBy_padded (ws := ws) (pre := s) (core := []) (post := []) h (by simp) (by simp) (by simp)
    simpa using this

/-! ### rfind and splitext -/

theorem rfind_none {c : Char} {s : Str} : rfind c s = none ↔ c ∉ s := by
  induction s with
  | nil => simp [rfind]
  | cons x t ih =>
    unfold rfind
    cases h : rfind c t with
    | some i =>
      simp only [h] at ih ⊢
      simp only [reduceCtorEq, false_iff, not_not] at ih ⊢
      simp [ih]
    | none =>
      have := ih.1 h
      by_cases hx : x = c
      · simp [hx]
      · simp [hx, this, Ne.symm hx]

theorem rfind_some {c : Char} {s : Str} {i : Nat} :
    rfind c s = some i ↔ ∃ a b, s = a ++ c :: b ∧ a.length = i ∧ c ∉ b := by
  induction s generalizing i with
  | nil => simp [rfind]
  | cons x t ih =>
    unfold rfind
    cases h : rfind c t with
    | some j =>
      simp only [Option.some.injEq]
      obtain ⟨a, b, e, hl, hb⟩ := ih.1 h
      constructor
      · rintro rfl
        exact ⟨x :: a, b, by simp [e], by simp [hl], hb⟩
      · rintro ⟨a', b', e', hl', hb'⟩
        cases a' with
        | nil =>
          simp only [List.nil_append, List.cons.injEq] at e'
          exfalso; apply hb'; rw [← e'.2, e]; simp
        | cons y a' =>
          simp only [List.cons_append, List.cons.injEq] at e'
          have := ih.2 ⟨a', b', e'.2, rfl, hb'⟩
          rw [h] at this
          simp only [Option.some.injEq] at this
          simp only [List.length_cons] at hl'
          omega
    | none =>
      have hn := rfind_none.1 h
      simp only
      by_cases hx : x = c
      · subst hx
        rw [if_pos rfl]
        constructor
        · intro hi
          simp only [Option.some.injEq] at hi
          subst hi
          exact ⟨[], t, rfl, rfl, hn⟩
        · rintro ⟨a', b', e', hl', hb'⟩
          cases a' with
          | nil => simp only [List.length_nil] at hl'; rw [hl']
          | cons y a' =>
            simp only [List.cons_append, List.cons.injEq] at e'
            exfalso; apply hn; rw [e'.2]; simp
      · rw [if_neg hx]
        simp only [reduceCtorEq, false_iff]
        rintro ⟨a', b', e', hl', hb'⟩
        cases a' with
        | nil => simp only [List.nil_append, List.cons.injEq] at e'; exact hx e'.1
        | cons y a' =>
          simp only [List.cons_append, List.cons.injEq] at e'
          apply hn; rw [e'.2]; simp

theorem any_ne_dot {l : Str} : l.any (fun c => decide (c ≠ '.')) = true ↔ ∃ c ∈ l, c ≠ '.' := by
  simp

theorem splitext_of_hasExt {p root ext : Str} (h : HasExt p root ext) : splitext p = (root, ext) := by
  obtain ⟨rfl, ⟨name, hn, hs, c, hc, hcd⟩, body, rfl, hd, hb⟩ := h
  obtain ⟨d, rfl⟩ := hn
  have h1 : rfind '.' (d ++ name ++ '.' :: body) = some (d ++ name).length := rfind_some.2 ⟨_, _, rfl, rfl, hd⟩
  unfold splitext
  rw [h1]
  simp only
  have hany : ∀ st, st ≤ d.length → ((d ++ name).drop st).any (fun c => decide (c ≠ '.')) = true := by
    intro st hst
    rw [any_ne_dot]
    refine ⟨c, ?_, hcd⟩
    rw [List.drop_append_of_le_length hst]
    simp [hc]
  have hst : ∃ st, nameStart (d ++ name ++ '.' :: body) = st ∧ st ≤ d.length := by
    unfold nameStart
    cases h2 : rfind '/' (d ++ name ++ '.' :: body) with
    | none => exact ⟨0, rfl, Nat.zero_le _⟩
    | some i =>
      refine ⟨i + 1, rfl, ?_⟩
      obtain ⟨a, b, e, hl, hnb⟩ := rfind_some.1 h2
      by_cases hlt : i < d.length
      · omega
      · exfalso
        have hget : (d ++ name ++ '.' :: body)[i]? = some '/' := by rw [e]; simp [← hl]
        rw [List.append_assoc, List.getElem?_append_right (by omega)] at hget
        have := List.mem_of_getElem? hget
        simp [hs, hb] at this
  obtain ⟨st, e, hle⟩ := hst
  rw [e]
  have ht : (d ++ name ++ '.' :: body).take (d ++ name).length = d ++ name := List.take_left
  have hdp : (d ++ name ++ '.' :: body).drop (d ++ name).length = '.' :: body := List.drop_left
  rw [ht, hdp, if_pos ⟨by simp; omega, hany st hle⟩]

theorem splitext_none {p : Str} (h : ∀ r e, ¬ HasExt p r e) : splitext p = (p, []) := by
  unfold splitext
  cases h1 : rfind '.' p with
  | none => rfl
  | some dot =>
    simp only
    split
    · rename_i hc
      exfalso
      obtain ⟨a, b, rfl, hl, hb⟩ := rfind_some.1 h1
      subst hl
      have ht : (a ++ '.' :: b).take a.length = a := List.take_left
      rw [ht] at hc
      obtain ⟨hle, hany⟩ := hc
      rw [any_ne_dot] at hany
      unfold nameStart at hany hle
      cases h2 : rfind '/' (a ++ '.' :: b) with
      | none =>
        rw [h2] at hany
        simp only [List.drop_zero] at hany
        have := rfind_none.1 h2
        simp only [List.mem_append, List.mem_cons, not_or] at this
        exact h a ('.' :: b) ⟨rfl, ⟨a, List.suffix_refl _, this.1, hany⟩, b, rfl, hb, this.2.2⟩
      | some i =>
        rw [h2] at hany hle
        simp only at hany hle
        obtain ⟨a', b', e, hl', hb'⟩ := rfind_some.1 h2
        have ha : ∃ mid, a = a' ++ '/' :: mid ∧ b' = mid ++ '.' :: b := by
          have e' : a ++ ('.' :: b) = (a' ++ ['/']) ++ b' := by simp [e]
          rcases List.append_eq_append_iff.1 e' with ⟨m, hm1, hm2⟩ | ⟨m, hm1, hm2⟩
          · cases m with
            | nil =>
              refine ⟨[], by simpa using hm1.symm, by simpa using hm2.symm⟩
            | cons y m =>
              exfalso
              have := congrArg List.length hm1
              simp only [List.length_append, List.length_cons, List.length_nil] at this
              omega
          · exact ⟨m, by simpa using hm1, by simpa using hm2⟩
        obtain ⟨mid, rfl, rfl⟩ := ha
        have hdrop : (a' ++ '/' :: mid).drop (i + 1) = mid := by
          have : a' ++ '/' :: mid = (a' ++ ['/']) ++ mid := by simp
          rw [this, ← hl']
          have : a'.length + 1 = (a' ++ ['/']).length := by simp
          rw [this, List.drop_left]
        rw [hdrop] at hany
        simp only [List.mem_append, List.mem_cons, not_or] at hb'
        exact h _ ('.' :: b) ⟨rfl, ⟨mid, ⟨a' ++ ['/'], by simp⟩, hb'.1, hany⟩, b, rfl, hb, hb'.2.2⟩
    · rfl

theorem splits_splitext (p : Str) : Splits p (splitext p).1 (splitext p).2 := by
  by_cases h : ∃ r e, HasExt p r e
  · obtain ⟨r, e, h⟩ := h
    rw [splitext_of_hasExt h]
    exact .inl h
  · have h' : ∀ r e, ¬ HasExt p r e := fun r e hh => h ⟨r, e, hh⟩
    rw [splitext_none h']
    exact .inr ⟨rfl, rfl, h'⟩

theorem splits_eq {p root ext : Str} (h : Splits p root ext) : splitext p = (root, ext) := by
  rcases h with h | ⟨rfl, rfl, h⟩
  · exact splitext_of_hasExt h
  · exact splitext_none h

theorem splitext_append (p : Str) : (splitext p).1 ++ (splitext p).2 = p := by
  rcases splits_splitext p with ⟨h, -⟩ | ⟨h1, h2, -⟩
  · exact h.symm
  · rw [h1, h2, List.append_nil]

/-! ### unique names -/

theorem natStr_inj {a b : Nat} (h : natStr a = natStr b) : a = b := by
  have h1 := pyInt_natStr a
  rw [h, pyInt_natStr b] at h1
  simp only [Option.some.injEq] at h1
  omega

theorem generateFilenames_inj {f : Str} {i j : Nat} (h : generateFilenames f i = generateFilenames f j) : i = j := by
  have ne : ∀ k, f ≠ (splitext f).1 ++ natStr (k + 1) ++ (splitext f).2 := by
    intro k e
    have h1 := congrArg List.length e
    have h2 := congrArg List.length (splitext_append f)
    have h3 := List.length_pos_iff.2 (natStr_ne_nil (k + 1))
    simp only [List.length_append] at h1 h2
    omega
  cases i with
  | zero => cases j with
    | zero => rfl
    | succ j => exact absurd h (ne j)
  | succ i => cases j with
    | zero => exact absurd h.symm (ne i)
    | succ j =>
      simp only [generateFilenames, List.append_assoc] at h
      have h := List.append_cancel_left h
      have h := List.append_cancel_right h
      exact natStr_inj h

theorem variation_iff {f v : Str} {k : Nat} : Variation f k v ↔ v = generateFilenames f k := by
  unfold Variation
  cases k with
  | zero => simp [generateFilenames]
  | succ k =>
    simp only [Nat.succ_ne_zero, false_and, Nat.zero_lt_succ, true_and, false_or, generateFilenames]
    constructor
    · rintro ⟨r, e, hs, rfl⟩
      rw [splits_eq hs]
    · rintro rfl
      exact ⟨_, _, splits_splitext f, rfl⟩

theorem exists_free (files : List Str) (gen : Nat → Str) (inj : ∀ i j, gen i = gen j → i = j) :
    ∃ k, k ≤ files.length ∧ gen k ∉ files := by
  by_contra hc
  have hall : ∀ k, k ≤ files.length → gen k ∈ files := by
    intro k hk
    by_contra hn
    exact hc ⟨k, hk, hn⟩
  have hnd : ((List.range (files.length + 1)).map gen).Nodup := by
    rw [List.Nodup, List.pairwise_map]
    exact List.Pairwise.imp (fun hne e => hne (inj _ _ e)) List.nodup_range
  have hsub : (List.range (files.length + 1)).map gen ⊆ files := by
    intro x hx
    obtain ⟨k, hk, rfl⟩ := List.mem_map.1 hx
    exact hall k (by have := List.mem_range.1 hk; omega)
  have := (hnd.subperm hsub).length_le
  simp only [List.length_map, List.length_range] at this
  omega

theorem uniqueLoop_eq {exist : Str → Bool} {gen : Nat → Str} {k : Nat} :
    ∀ {fuel i : Nat}, i ≤ k → (∀ j, i ≤ j → j < k → exist (gen j) = true) → exist (gen k) = false →
      k < i + fuel → uniqueLoop exist gen fuel i = some (gen k)
  | 0, i, hik, _, _, hf => by omega
  | fuel + 1, i, hik, hall, hk, hf => by
    unfold uniqueLoop
    by_cases h : i = k
    · subst h; rw [hk]; rfl
    · rw [hall i (Nat.le_refl _) (by omega), if_pos rfl]
      exact uniqueLoop_eq (by omega) (fun j hj => hall j (by omega)) hk (by omega)

theorem uniqueLoop_some {exist : Str → Bool} {gen : Nat → Str} {r : Str} :
    ∀ {fuel i : Nat}, uniqueLoop exist gen fuel i = some r →
      ∃ k, i ≤ k ∧ r = gen k ∧ exist r = false ∧ ∀ j, i ≤ j → j < k → exist (gen j) = true
  | 0, _, h => by simp [uniqueLoop] at h
  | fuel + 1, i, h => by
    unfold uniqueLoop at h
    cases he : exist (gen i) with
    | true =>
      rw [he, if_pos rfl] at h
      obtain ⟨k, h1, h2, h3, h4⟩ := uniqueLoop_some h
      refine ⟨k, by omega, h2, h3, ?_⟩
      intro j hj hk
      by_cases hij : i = j
      · subst hij; exact he
      · exact h4 j (by omega) hk
    | false =>
      rw [he] at h
      simp only [Bool.false_eq_true, if_false, Option.some.injEq] at h
      exact ⟨i, Nat.le_refl _, h.symm, by rw [← h]; exact he, fun j h1 h2 => by omega⟩

end Lemmas
