import Verif.Model.Codec
import Verif.Spec.Codec
/-
Property C61: objects survive JSON encoding.
-/
namespace Props
open Py Model Spec

/-- What the encoder makes of the line ends. -/
private def norm (crlf : Bool) : List Nat → List Nat
  | [] => []
  | b :: t =>
    if b = 10 then (if crlf then [13, 10] else [10]) ++ norm crlf t
    else if b = 13 ∧ t.head? = some 10 then
      match t with
      | [] => [b]
      | _ :: t => (if crlf then [13, 10] else [10]) ++ norm crlf t
    else b :: norm crlf t

private theorem norm_cons (crlf : Bool) (b : Nat) (t : List Nat) : norm crlf (b :: t) =
    if b = 10 then (if crlf then [13, 10] else [10]) ++ norm crlf t
    else if b = 13 ∧ t.head? = some 10 then
      match t with
      | [] => [b]
      | _ :: t => (if crlf then [13, 10] else [10]) ++ norm crlf t
    else b :: norm crlf t := by
  cases t <;> rfl

private theorem b2a_cons (crlf : Bool) (b : Nat) (t : List Nat) (ll : Nat) (out : List Nat) :
    b2aLoop crlf (b :: t) ll out =
    if qpQuoted b t ll then
      if ll + 3 ≥ 76 then b2aLoop crlf t 3 (qpHex b (qpEol crlf (61 :: out)))
      else b2aLoop crlf t (ll + 3) (qpHex b out)
    else if b = 10 then b2aLoop crlf t 0 (qpEol crlf (qpProtect out))
    else if b = 13 ∧ t.head? = some 10 then
      match t with
      | [] => out
      | _ :: t => b2aLoop crlf t 0 (qpEol crlf (qpProtect out))
    else if t ≠ [] ∧ t.head? ≠ some 10 ∧ ll + 1 ≥ 76 then b2aLoop crlf t 1 (b :: qpEol crlf (61 :: out))
    else b2aLoop crlf t (ll + 1) (b :: out) := by
  cases t <;> rfl

/-- Output and decoded bytes, both backwards. -/
private inductive DecR : List Nat → List Nat → Prop
  | nil : DecR [] []
  | raw {b o u} : b ≠ 61 → DecR o u → DecR (b :: o) (b :: u)
  | hex {b o u} : b < 256 → DecR o u → DecR (qpHex b o) (b :: u)
  | soft {crlf o u} : DecR o u → DecR (qpEol crlf (61 :: o)) u

private theorem hexVal_digit : ∀ n, n < 16 → hexVal (hexDigit n) = some n := by decide
private theorem hexDigit_ne : ∀ n, n < 16 → hexDigit n ≠ 10 ∧ hexDigit n ≠ 13 ∧ hexDigit n ≠ 61 ∧
    hexDigit n ≠ 32 ∧ hexDigit n ≠ 9 := by decide

private theorem a2b_raw {b : Nat} (h : b ≠ 61) (t : List Nat) : a2bLoop false (b :: t) = b :: a2bLoop false t := by
  rw [a2bLoop.eq_def]
  simp only [ne_eq, h, not_false_eq_true, if_true]

private theorem a2b_hex {b : Nat} (hb : b < 256) (t : List Nat) :
    a2bLoop false (61 :: hexDigit (b / 16) :: hexDigit (b % 16) :: t) = b :: a2bLoop false t := by
  have h1 := hexVal_digit (b / 16) (by omega)
  have h2 := hexVal_digit (b % 16) (by omega)
  have h3 := hexDigit_ne (b / 16) (by omega)
  rw [a2bLoop.eq_def]
  simp only [ne_eq, not_true_eq_false, if_false, h3.1, h3.2.1, h3.2.2.1, h1, h2]
  congr 1
  omega

private theorem a2b_soft (crlf : Bool) (t : List Nat) :
    a2bLoop false (61 :: ((if crlf then [13, 10] else [10]) ++ t)) = a2bLoop false t := by
  cases crlf
  · show a2bLoop false (61 :: 10 :: t) = _
    rw [a2bLoop.eq_def]; simp
  · show a2bLoop false (61 :: 13 :: 10 :: t) = _
    rw [a2bLoop.eq_def]
    simp only [ne_eq, not_true_eq_false, if_false, show (13 : Nat) ≠ 10 by decide, if_true]
    rw [a2bLoop.eq_def]; simp

private theorem decR_sound {o u : List Nat} (h : DecR o u) : ∀ t,
    a2bLoop false (o.reverse ++ t) = u.reverse ++ a2bLoop false t := by
  induction h with
  | nil => intro t; rfl
  | raw hb _ ih => intro t; simp only [List.reverse_cons, List.append_assoc, ih]; simp [a2b_raw hb]
  | hex hb _ ih =>
    intro t
    have := a2b_hex hb t
    simp only [qpHex, List.reverse_cons, List.append_assoc, ih]
    simp [this]
  | @soft crlf o u _ ih =>
    intro t
    have := a2b_soft crlf t
    have e : (qpEol crlf (61 :: o)).reverse ++ t = o.reverse ++ (61 :: ((if crlf then [13, 10] else [10]) ++ t)) := by
      cases crlf <;> simp [qpEol]
    rw [e, ih, this]

private theorem decR_eol {o u : List Nat} (crlf : Bool) (h : DecR o u) :
    DecR (qpEol crlf o) (if crlf then 10 :: 13 :: u else 10 :: u) := by
  cases crlf
  · exact .raw (by decide) h
  · exact .raw (by decide) (.raw (by decide) h)

private theorem decR_protect {o u : List Nat} (h : DecR o u) : DecR (qpProtect o) u := by
  cases o with
  | nil => exact h
  | cons b o =>
    rw [qpProtect]
    by_cases hb : b = 32 ∨ b = 9
    · rw [if_pos hb]
      generalize e : b :: o = o' at h
      cases h with
      | nil => simp at e
      | raw h1 h2 =>
        simp only [List.cons.injEq] at e
        obtain ⟨rfl, rfl⟩ := e
        exact .hex (by omega) h2
      | @hex b' o' u' h1 h2 =>
        simp only [qpHex, List.cons.injEq] at e
        have := hexDigit_ne (b' % 16) (by omega)
        omega
      | @soft crlf o' _ h2 =>
        cases crlf <;> simp [qpEol] at e <;> omega
    · rw [if_neg hb]; exact h

private theorem loop_dec (crlf : Bool) (n : Nat) : ∀ (x : List Nat), x.length ≤ n → IsBytes x → ∀ ll out u, DecR out u →
    ∃ o, DecR (b2aLoop crlf x ll out) o ∧ o.reverse = u.reverse ++ norm crlf x := by
  induction n with
  | zero =>
    intro x hx _ ll out u h
    have : x = [] := List.length_eq_zero_iff.1 (by omega)
    subst this
    exact ⟨u, h, by simp [norm]⟩
  | succ n ih =>
    intro x hx hby ll out u h
    cases x with
    | nil => exact ⟨u, h, by simp [norm]⟩
    | cons b t =>
      have hb : b < 256 := hby b (by simp)
      have ht : IsBytes t := fun y hy => hby y (by simp [hy])
      have hlt : t.length ≤ n := by simpa using hx
      have eolStep : ∀ (t' : List Nat), t'.length ≤ n → IsBytes t' →
          ∃ o, DecR (b2aLoop crlf t' 0 (qpEol crlf (qpProtect out))) o ∧
            o.reverse = u.reverse ++ ((if crlf then [13, 10] else [10]) ++ norm crlf t') := by
        intro t' hl hb'
        obtain ⟨o, h1, h2⟩ := ih t' hl hb' 0 _ _ (decR_eol crlf (decR_protect h))
        refine ⟨o, h1, ?_⟩
        rw [h2]; cases crlf <;> simp
      rw [b2a_cons]
      by_cases hq : qpQuoted b t ll = true
      · have hn10 : b ≠ 10 ∧ b ≠ 13 := by
          constructor <;> rintro rfl <;> simp [qpQuoted] at hq
        have hnorm : norm crlf (b :: t) = b :: norm crlf t := by
          rw [norm_cons, if_neg hn10.1, if_neg (fun h => hn10.2 h.1)]
        rw [if_pos hq, hnorm]
        split
        · obtain ⟨o, h1, h2⟩ := ih t hlt ht 3 _ _ (.hex hb (.soft (crlf := crlf) h))
          exact ⟨o, h1, by rw [h2]; simp⟩
        · obtain ⟨o, h1, h2⟩ := ih t hlt ht (ll + 3) _ _ (.hex hb h)
          exact ⟨o, h1, by rw [h2]; simp⟩
      · rw [if_neg hq]
        have h61 : b ≠ 61 := by rintro rfl; simp [qpQuoted] at hq
        by_cases h10 : b = 10
        · rw [if_pos h10, norm_cons, if_pos h10]
          exact eolStep t hlt ht
        · rw [if_neg h10, norm_cons, if_neg h10]
          by_cases hcr : b = 13 ∧ t.head? = some 10
          · rw [if_pos hcr, if_pos hcr]
            cases t with
            | nil => simp at hcr
            | cons c t =>
              exact eolStep t (by simp at hlt; omega) (fun y hy => ht y (by simp [hy]))
          · rw [if_neg hcr, if_neg hcr]
            split
            · obtain ⟨o, h1, h2⟩ := ih t hlt ht 1 _ _ (.raw h61 (.soft (crlf := crlf) h))
              exact ⟨o, h1, by rw [h2]; simp⟩
            · obtain ⟨o, h1, h2⟩ := ih t hlt ht (ll + 1) _ _ (.raw h61 h)
              exact ⟨o, h1, by rw [h2]; simp⟩

private theorem decode_encode (x : List Nat) (h : IsBytes x) : a2bQp (b2aQp x) = norm (usesCrlf false x) x := by
  obtain ⟨o, h1, h2⟩ := loop_dec (usesCrlf false x) x.length x (Nat.le_refl _) h 0 [] [] .nil
  have := decR_sound h1 []
  unfold a2bQp b2aQp
  rw [List.append_nil] at this
  rw [this, h2]
  simp [a2bLoop]

/-! The line ends -/

private theorem norm_false_length (n : Nat) : ∀ x : List Nat, x.length ≤ n → (norm false x).length ≤ x.length := by
  induction n with
  | zero =>
    intro x hx
    have : x = [] := List.length_eq_zero_iff.1 (by omega)
    subst this; simp [norm]
  | succ n ih =>
    intro x hx
    cases x with
    | nil => simp [norm]
    | cons b t =>
      have h := ih t (by simpa using hx)
      rw [norm_cons]
      split
      · simpa using h
      · split
        · cases t with
          | nil => simp
          | cons c t =>
            have := ih t (by simp at hx; omega)
            simp; omega
        · simpa using h

private theorem crlf_cons {b : Nat} {t : List Nat} (h : ¬ (b = 13 ∧ t.head? = some 10)) :
    HasCrlf (b :: t) ↔ HasCrlf t := by
  constructor
  · rintro ⟨p, q, e⟩
    cases p with
    | nil =>
      simp only [List.nil_append, List.cons.injEq] at e
      obtain ⟨rfl, rfl⟩ := e
      exact absurd ⟨rfl, rfl⟩ h
    | cons y p =>
      simp only [List.cons_append, List.cons.injEq] at e
      exact ⟨p, q, e.2⟩
  · rintro ⟨p, q, rfl⟩; exact ⟨b :: p, q, rfl⟩

private theorem norm_false (n : Nat) : ∀ x : List Nat, x.length ≤ n → (norm false x = x ↔ ¬ HasCrlf x) := by
  induction n with
  | zero =>
    intro x hx
    have : x = [] := List.length_eq_zero_iff.1 (by omega)
    subst this; simp [norm, HasCrlf]
  | succ n ih =>
    intro x hx
    cases x with
    | nil => simp [norm, HasCrlf]
    | cons b t =>
      have h := ih t (by simpa using hx)
      rw [norm_cons]
      by_cases h10 : b = 10
      · rw [if_pos h10, crlf_cons (by omega), ← h, h10]; simp
      · rw [if_neg h10]
        by_cases hcr : b = 13 ∧ t.head? = some 10
        · rw [if_pos hcr]
          cases t with
          | nil => simp at hcr
          | cons c t =>
            simp only [List.head?_cons, Option.some.injEq] at hcr
            obtain ⟨rfl, rfl⟩ := hcr
            simp
            exact ⟨[], t, rfl⟩
        · rw [if_neg hcr, crlf_cons hcr, ← h]; simp

private theorem bare_cons {b : Nat} {t : List Nat} (h1 : b ≠ 10) (h : ¬ (b = 13 ∧ t.head? = some 10)) :
    HasBareLf (b :: t) ↔ HasBareLf t := by
  constructor
  · rintro ⟨p, q, e, hp⟩
    cases p with
    | nil =>
      simp only [List.nil_append, List.cons.injEq] at e
      exact absurd e.1 h1
    | cons y p =>
      simp only [List.cons_append, List.cons.injEq] at e
      refine ⟨p, q, e.2, ?_⟩
      cases p with
      | nil => simp
      | cons z p => rwa [List.getLast?_cons_cons] at hp
  · rintro ⟨p, q, rfl, hp⟩
    refine ⟨b :: p, q, rfl, ?_⟩
    cases p with
    | nil => simpa using fun e => h ⟨e, rfl⟩
    | cons z p => rwa [List.getLast?_cons_cons]

private theorem bare_crlf {t : List Nat} : HasBareLf (13 :: 10 :: t) ↔ HasBareLf t := by
  constructor
  · rintro ⟨p, q, e, hp⟩
    match p with
    | [] => simp at e
    | [y] =>
      simp only [List.cons_append, List.nil_append, List.cons.injEq] at e
      obtain ⟨rfl, -⟩ := e
      simp at hp
    | y :: z :: p =>
      simp only [List.cons_append, List.cons.injEq] at e
      refine ⟨p, q, e.2.2, ?_⟩
      cases p with
      | nil => simp
      | cons w p => rwa [List.getLast?_cons_cons, List.getLast?_cons_cons] at hp
  · rintro ⟨p, q, rfl, hp⟩
    refine ⟨13 :: 10 :: p, q, rfl, ?_⟩
    cases p with
    | nil => simp
    | cons z p => rwa [List.getLast?_cons_cons, List.getLast?_cons_cons]

private theorem norm_true (n : Nat) : ∀ x : List Nat, x.length ≤ n → (norm true x = x ↔ ¬ HasBareLf x) := by
  induction n with
  | zero =>
    intro x hx
    have : x = [] := List.length_eq_zero_iff.1 (by omega)
    subst this; simp [norm, HasBareLf]
  | succ n ih =>
    intro x hx
    cases x with
    | nil => simp [norm, HasBareLf]
    | cons b t =>
      have h := ih t (by simpa using hx)
      rw [norm_cons]
      by_cases h10 : b = 10
      · rw [if_pos h10, h10]
        simp
        exact ⟨[], t, rfl, by simp⟩
      · rw [if_neg h10]
        by_cases hcr : b = 13 ∧ t.head? = some 10
        · rw [if_pos hcr]
          cases t with
          | nil => simp at hcr
          | cons c t =>
            simp only [List.head?_cons, Option.some.injEq] at hcr
            obtain ⟨rfl, rfl⟩ := hcr
            rw [bare_crlf, ← ih t (by simp at hx; omega)]
            simp
        · rw [if_neg hcr, bare_cons h10 hcr, ← h]; simp

private theorem uses_true {x : List Nat} {prev : Bool} (h : usesCrlf prev x = true) :
    HasCrlf x ∨ (prev = true ∧ x.head? = some 10) := by
  induction x generalizing prev with
  | nil => simp [usesCrlf] at h
  | cons b t ih =>
    rw [usesCrlf] at h
    by_cases h10 : b = 10
    · rw [if_pos h10] at h
      exact .inr ⟨h, by simp [h10]⟩
    · rw [if_neg h10] at h
      rcases ih h with ⟨p, q, rfl⟩ | ⟨h1, h2⟩
      · exact .inl ⟨b :: p, q, rfl⟩
      · cases t with
        | nil => simp at h2
        | cons c t =>
          simp only [List.head?_cons, Option.some.injEq] at h2
          have : b = 13 := by simpa using h1
          subst h2 this
          exact .inl ⟨[], t, rfl⟩

private theorem uses_false {x : List Nat} {prev : Bool} (h : usesCrlf prev x = false) (h10 : 10 ∈ x) :
    ∃ p q, x = p ++ 10 :: q ∧ p.getLast? ≠ some 13 ∧ (p = [] → prev = false) := by
  induction x generalizing prev with
  | nil => simp at h10
  | cons b t ih =>
    rw [usesCrlf] at h
    by_cases hb : b = 10
    · rw [if_pos hb] at h
      exact ⟨[], t, by simp [hb], by simp, fun _ => h⟩
    · rw [if_neg hb] at h
      rcases List.mem_cons.1 h10 with e | h10
      · exact absurd e.symm hb
      · obtain ⟨p, q, rfl, h1, h2⟩ := ih h h10
        refine ⟨b :: p, q, rfl, ?_, by simp⟩
        cases p with
        | nil => simpa using h2 rfl
        | cons z p => rwa [List.getLast?_cons_cons]

/-- C61. A payload survives coding exactly when its line ends are not mixed: no CR LF next to other LF.
Missing: the other payloads, see the two refutations below. -/
theorem C61_payload_partial (x : List Nat) (h : IsBytes x) : a2bQp (b2aQp x) = x ↔ UniformLines x := by
  rw [decode_encode x h]
  unfold UniformLines
  cases hu : usesCrlf false x with
  | true =>
    rw [norm_true _ x (Nat.le_refl _)]
    have : HasCrlf x := by
      rcases uses_true hu with h | h
      · exact h
      · simp at h
    simp [this]
  | false =>
    rw [norm_false _ x (Nat.le_refl _)]
    constructor
    · intro h1 h2; exact h1 h2.1
    · intro h1 h2
      apply h1
      refine ⟨h2, ?_⟩
      obtain ⟨p, q, rfl⟩ := h2
      obtain ⟨p', q', e, h3, -⟩ := uses_false hu (by simp)
      exact ⟨p', q', e, h3⟩

private theorem loop_ascii (crlf : Bool) (n : Nat) : ∀ (x : List Nat), x.length ≤ n → IsBytes x → ∀ ll out,
    (∀ c ∈ out, c ≤ 126) → ∀ c ∈ b2aLoop crlf x ll out, c ≤ 126 := by
  have hexd : ∀ n, n < 16 → hexDigit n ≤ 126 := by decide
  have hhex : ∀ b out, b < 256 → (∀ c ∈ out, c ≤ 126) → ∀ c ∈ qpHex b out, c ≤ 126 := by
    intro b out hb ho c hc
    simp only [qpHex, List.mem_cons] at hc
    rcases hc with rfl | rfl | rfl | hc
    · exact hexd _ (by omega)
    · exact hexd _ (by omega)
    · omega
    · exact ho c hc
  have heol : ∀ out, (∀ c ∈ out, c ≤ 126) → ∀ c ∈ qpEol crlf out, c ≤ 126 := by
    intro out ho c hc
    cases crlf <;> simp only [qpEol, if_true, if_false, List.mem_cons, Bool.false_eq_true] at hc
    · rcases hc with rfl | hc
      · omega
      · exact ho c hc
    · rcases hc with rfl | rfl | hc
      · omega
      · omega
      · exact ho c hc
  have hcons : ∀ (b : Nat) out, b ≤ 126 → (∀ c ∈ out, c ≤ 126) → ∀ c ∈ b :: out, c ≤ 126 := by
    intro b out hb ho c hc
    rcases List.mem_cons.1 hc with rfl | hc
    · exact hb
    · exact ho c hc
  have hprot : ∀ out, (∀ c ∈ out, c ≤ 126) → ∀ c ∈ qpProtect out, c ≤ 126 := by
    intro out ho
    cases out with
    | nil => exact ho
    | cons b out =>
      rw [qpProtect]
      split
      · rename_i hb
        exact hhex b out (by omega) (fun c hc => ho c (by simp [hc]))
      · exact ho
  induction n with
  | zero =>
    intro x hx _ ll out ho
    have : x = [] := List.length_eq_zero_iff.1 (by omega)
    subst this
    exact ho
  | succ n ih =>
    intro x hx hby ll out ho
    cases x with
    | nil => exact ho
    | cons b t =>
      have hb : b < 256 := hby b (by simp)
      have ht : IsBytes t := fun y hy => hby y (by simp [hy])
      have hlt : t.length ≤ n := by simpa using hx
      rw [b2a_cons]
      by_cases hq : qpQuoted b t ll = true
      · rw [if_pos hq]
        split
        · exact ih t hlt ht _ _ (hhex b _ hb (heol _ (hcons _ _ (by omega) ho)))
        · exact ih t hlt ht _ _ (hhex b _ hb ho)
      · rw [if_neg hq]
        have hle : b ≤ 126 := by
          apply Classical.byContradiction
          intro hn
          apply hq
          have : b > 126 := by omega
          simp [qpQuoted, this]
        split
        · exact ih t hlt ht _ _ (heol _ (hprot _ ho))
        · split
          · cases t with
            | nil => exact ho
            | cons c t => exact ih t (by simp at hlt; omega) (fun y hy => ht y (by simp [hy])) _ _ (heol _ (hprot _ ho))
          · split
            · exact ih t hlt ht _ _ (hcons _ _ hle (heol _ (hcons _ _ (by omega) ho)))
            · exact ih t hlt ht _ _ (hcons _ _ hle ho)

/-- C61. What the codec puts in JSON is plain ASCII, whatever the payload. -/
theorem C61_ascii (x : List Nat) (h : IsBytes x) : ∀ c ∈ b2aQp x, c ≤ 126 := by
  intro c hc
  unfold b2aQp at hc
  exact loop_ascii _ _ x (Nat.le_refl _) h 0 [] (by simp) c (by simpa using hc)

private theorem ascii_roundtrip {b : List Nat} (h : ∀ c ∈ b, c ≤ 126) : asciiEncode (asciiDecode b) = b := by
  unfold asciiEncode asciiDecode
  rw [List.map_map]
  conv => rhs; rw [← List.map_id b]
  apply List.map_congr_left
  intro c hc
  have := h c hc
  simp only [Function.comp, id]
  have hv : c.isValidChar := by unfold Nat.isValidChar; omega
  rw [Char.ofNat, dif_pos hv]
  rfl

private theorem b2a_ne_nil {x : List Nat} (h : IsBytes x) (hne : x ≠ []) : b2aQp x ≠ [] := by
  intro e
  have := decode_encode x h
  rw [e] at this
  have h0 : a2bQp [] = [] := rfl
  rw [h0] at this
  cases x with
  | nil => exact hne rfl
  | cons b t =>
    rw [norm_cons] at this
    split at this
    · split at this <;> simp at this
    · split at this
      · cases t with
        | nil => simp at this
        | cons c t => simp only at this; split at this <;> simp at this
      · simp at this

/-- C61. Decoding what was encoded unpickles the very payload, so that an object that survives pickling
survives the codec, when JSON keeps texts and the payload has no mixed line ends. -/
theorem C61_object_partial {Obj : Type} (e : CodecEnv Obj) (o : Obj)
    (hjson : ∀ d, e.jsonDecode (e.jsonEncode d) = d) (hb : IsBytes (e.dumps o)) (hne : e.dumps o ≠ [])
    (hpickle : e.loads (e.dumps o) = some o) (hu : UniformLines (e.dumps o)) :
    codecDecode e (codecEncode e o) = .obj o := by
  have hr := (C61_payload_partial _ hb).2 hu
  have ha := ascii_roundtrip (C61_ascii _ hb)
  unfold codecEncode codecDecode
  simp only [hjson, List.lookup, beq_self_eq_true]
  cases hs : asciiDecode (b2aQp (e.dumps o)) with
  | nil =>
    exfalso
    apply b2a_ne_nil hb hne
    rw [hs] at ha
    exact ha.symm
  | cons c t =>
    simp only
    rw [← hs, ha, hr, hpickle]

/-- C61 fails for every object whose payload has mixed line ends: what gets unpickled is another
payload. -/
theorem C61_mixed_refuted {Obj : Type} (e : CodecEnv Obj) (o : Obj)
    (hjson : ∀ d, e.jsonDecode (e.jsonEncode d) = d) (hb : IsBytes (e.dumps o))
    (hcr : HasCrlf (e.dumps o)) (hlf : HasBareLf (e.dumps o)) :
    ∃ payload, payload ≠ e.dumps o ∧ codecDecode e (codecEncode e o) =
      (match e.loads payload with
      | some x => .obj x
      | none => .fails) := by
  have hne : e.dumps o ≠ [] := by
    obtain ⟨p, q, h⟩ := hcr; rw [h]; simp
  have ha := ascii_roundtrip (C61_ascii _ hb)
  refine ⟨a2bQp (b2aQp (e.dumps o)), fun h => (C61_payload_partial _ hb).1 h ⟨hcr, hlf⟩, ?_⟩
  unfold codecEncode codecDecode
  simp only [hjson, List.lookup, beq_self_eq_true]
  cases hs : asciiDecode (b2aQp (e.dumps o)) with
  | nil =>
    exfalso
    apply b2a_ne_nil hb hne
    rw [hs] at ha
    exact ha.symm
  | cons c t =>
    simp only
    rw [← hs, ha]
    rfl

/-- The text CR LF LF pickled is such a payload: it comes back as CR LF CR LF. -/
theorem C61_crlf_refuted : a2bQp (b2aQp [13, 10, 10]) = [13, 10, 13, 10] := by decide

example : b2aQp [97, 32, 61, 195, 10, 46, 10] = "a =3D=C3\n=2E\n".toList.map Char.toNat := by rfl
example : b2aQp [97, 32, 10] = "a=20\n".toList.map Char.toNat := by rfl
example : UniformLines [65, 13, 10, 66, 13, 10] := by
  rintro ⟨-, p, q, e, hp⟩
  match p with
  | [] => simp at e
  | [a] => simp at e
  | [a, b] => simp at e; simp [e.2.1.symm] at hp
  | [a, b, c] => simp at e
  | [a, b, c, d] => simp at e
  | [a, b, c, d, f] => simp at e; simp [e.2.2.2.2.1.symm] at hp
  | a :: b :: c :: d :: f :: g :: r => simp at e

end Props
