import Verif.Spec.PmodShown
/-
C169. Mappings that are shown can be told apart.
-/
namespace Props
open Py Model Spec

private theorem quote_cases (s : Str) : quoteOf s = '"' ∨ quoteOf s = '\'' := by
  unfold quoteOf; split
  · exact .inl rfl
  · exact .inr rfl

/-- What is written for a character, by its kind. -/
private theorem esc_cases {P : Printing} (hP : Printing.Ok P) {q : Char} (c : Char) :
    (∃ k t, escChar P q c = '\\' :: k :: t ∧
      ((c = q ∨ c = '\\') ∧ k = c ∧ t = [] ∨ c = '\t' ∧ k = 't' ∧ t = [] ∨ c = '\n' ∧ k = 'n' ∧ t = [] ∨ c = '\r' ∧ k = 'r' ∧ t = [] ∨
        P.hex c = '\\' :: k :: t ∧ (k = 'x' ∨ k = 'u' ∨ k = 'U'))) ∨
    (escChar P q c = [c] ∧ c ≠ q ∧ c ≠ '\\') := by
  unfold escChar
  by_cases h1 : c = q ∨ c = '\\'
  · rw [if_pos h1]; exact .inl ⟨_, _, rfl, .inl ⟨h1, rfl, rfl⟩⟩
  · rw [if_neg h1]
    by_cases h2 : c = '\t'
    · rw [if_pos h2]; exact .inl ⟨_, _, rfl, .inr (.inl ⟨h2, rfl, rfl⟩)⟩
    · rw [if_neg h2]
      by_cases h3 : c = '\n'
      · rw [if_pos h3]; exact .inl ⟨_, _, rfl, .inr (.inr (.inl ⟨h3, rfl, rfl⟩))⟩
      · rw [if_neg h3]
        by_cases h4 : c = '\r'
        · rw [if_pos h4]; exact .inl ⟨_, _, rfl, .inr (.inr (.inr (.inl ⟨h4, rfl, rfl⟩)))⟩
        · rw [if_neg h4]
          by_cases h5 : P.printable c = true
          · rw [if_pos h5]; exact .inr ⟨rfl, fun e => h1 (.inl e), fun e => h1 (.inr e)⟩
          · rw [if_neg h5]
            obtain ⟨k, t, e, hk⟩ := hP.starts c
            exact .inl ⟨k, t, e, .inr (.inr (.inr (.inr ⟨e, by simpa using hk⟩)))⟩

private theorem esc_inj {P : Printing} (hP : Printing.Ok P) {q : Char} (hq : q = '"' ∨ q = '\'') {c d : Char} {x y : Str}
    (e : escChar P q c ++ x = escChar P q d ++ y) : c = d ∧ x = y := by
  rcases esc_cases hP (q := q) c with ⟨k, t, ec, hc⟩ | ⟨ec, hcq, hcb⟩ <;> rcases esc_cases hP (q := q) d with ⟨k', t', ed, hd⟩ | ⟨ed, hdq, hdb⟩
  · rw [ec, ed] at e
    simp only [List.cons_append, List.cons.injEq, true_and] at e
    obtain ⟨rfl, e1⟩ := e
    have other : ∀ {c : Char}, (c = q ∨ c = '\\') → c ≠ 't' ∧ c ≠ 'n' ∧ c ≠ 'r' ∧ c ≠ 'x' ∧ c ≠ 'u' ∧ c ≠ 'U' := by
      rintro c (rfl | rfl)
      · rcases hq with rfl | rfl <;> decide
      · decide
    rcases hc with ⟨hc, rfl, rfl⟩ | ⟨rfl, rfl, rfl⟩ | ⟨rfl, rfl, rfl⟩ | ⟨rfl, rfl, rfl⟩ | ⟨hc, hk⟩ <;>
    rcases hd with ⟨hd, hk', rfl⟩ | ⟨rfl, hk', rfl⟩ | ⟨rfl, hk', rfl⟩ | ⟨rfl, hk', rfl⟩ | ⟨hd, hk'⟩
    all_goals first
      | (refine ⟨hk', ?_⟩; simpa using e1; done)
      | exact ⟨rfl, by simpa using e1⟩
      | exact hP.tells c d x y (by rw [hc, hd]; simp [e1])
      | (exfalso; have o := other hc; rcases hk' with hk' | hk' | hk' <;> simp [hk'] at o; done)
      | (exfalso; have o := other hc; simp [hk'] at o; done)
      | (exfalso; have o := other hd; rcases hk with hk | hk | hk <;> simp [← hk', hk] at o; done)
      | (exfalso; have o := other hd; simp [← hk'] at o; done)
      | (exfalso; revert hk'; decide)
      | (exfalso; rcases hk' with hk' | hk' | hk' <;> revert hk' <;> decide)
      | (exfalso; rcases hk with hk | hk | hk <;> rw [hk] at hk' <;> revert hk' <;> decide)
  · rw [ec, ed] at e
    simp only [List.cons_append, List.cons.injEq] at e
    exact absurd e.1.symm hdb
  · rw [ec, ed] at e
    simp only [List.cons_append, List.cons.injEq] at e
    exact absurd e.1 hcb
  · rw [ec, ed] at e
    simpa using e

private theorem esc_quote {P : Printing} (hP : Printing.Ok P) {q : Char} (hq : q = '"' ∨ q = '\'') {c : Char} {x y : Str}
    (e : escChar P q c ++ x = q :: y) : False := by
  rcases esc_cases hP (q := q) c with ⟨k, t, ec, _⟩ | ⟨ec, hcq, _⟩ <;> rw [ec] at e <;>
    simp only [List.cons_append, List.cons.injEq] at e
  · rw [← e.1] at hq; revert hq; decide
  · exact hcq e.1

private theorem str_inj {P : Printing} (hP : Printing.Ok P) {s s' x y : Str} (e : strRepr P s ++ x = strRepr P s' ++ y) : s = s' ∧ x = y := by
  have hq := quote_cases s
  unfold strRepr at e
  simp only [List.cons_append, List.cons.injEq, List.append_assoc] at e
  obtain ⟨eq, e⟩ := e
  rw [← eq] at e
  generalize quoteOf s = q at *
  clear eq
  induction s generalizing s' with
  | nil =>
    cases s' with
    | nil => simpa using e
    | cons c s' =>
      simp only [List.flatMap_nil, List.nil_append, List.flatMap_cons, List.append_assoc] at e
      exact (esc_quote hP hq e.symm).elim
  | cons c s ih =>
    cases s' with
    | nil =>
      simp only [List.flatMap_nil, List.nil_append, List.flatMap_cons, List.append_assoc] at e
      exact (esc_quote hP hq e).elim
    | cons d s' =>
      simp only [List.flatMap_cons, List.append_assoc] at e
      obtain ⟨rfl, e1⟩ := esc_inj hP hq e
      obtain ⟨rfl, e2⟩ := ih e1
      exact ⟨rfl, e2⟩

private theorem re_inj {P : Printing} (hP : Printing.Ok P) {s s' x y : Str} (h : (strRepr P s).length ≤ 200) (h' : (strRepr P s').length ≤ 200)
    (e : reRepr P s ++ x = reRepr P s' ++ y) : s = s' ∧ x = y := by
  unfold reRepr at e
  rw [List.take_of_length_le h, List.take_of_length_le h'] at e
  simp only [List.append_assoc, List.append_cancel_left_eq] at e
  obtain ⟨rfl, e1⟩ := str_inj hP e
  exact ⟨rfl, by simpa using e1⟩

private theorem join_cons (x : Str) : ∀ xs : List Str, join ", ".toList (x :: xs) = x ++ xs.flatMap (fun i => ',' :: ' ' :: i)
  | [] => by simp [join]
  | y :: xs => by
    rw [join, join_cons y xs]
    simp

/-- Texts joined with commas, up to a closing character, can be cut if each can. -/
private theorem tail_inj {α : Type} (text : α → Str) (z : Char) (hz : z ≠ ',') (K : α → Prop) :
    ∀ (l l' : List α) (x y : Str),
      (∀ a ∈ l, ∀ b, K b → ∀ x y, text a ++ x = text b ++ y → a = b ∧ x = y) → (∀ b ∈ l', K b) →
      (l.map text).flatMap (fun i => ',' :: ' ' :: i) ++ z :: x = (l'.map text).flatMap (fun i => ',' :: ' ' :: i) ++ z :: y → l = l' ∧ x = y
  | [], [], x, y, _, _, e => by simpa using e
  | [], b :: l', x, y, _, _, e => by simp at e; exact absurd e.1 hz
  | a :: l, [], x, y, _, _, e => by simp at e; exact absurd e.1.symm hz
  | a :: l, b :: l', x, y, h, h', e => by
    simp only [List.map_cons, List.flatMap_cons, List.cons_append, List.append_assoc, List.cons.injEq, true_and] at e
    obtain ⟨rfl, e1⟩ := h a (List.mem_cons_self ..) b (h' b (List.mem_cons_self ..)) _ _ e
    obtain ⟨rfl, e2⟩ := tail_inj text z hz K l l' x y (fun a ha => h a (List.mem_cons_of_mem _ ha)) (fun b hb => h' b (List.mem_cons_of_mem _ hb)) e1
    exact ⟨rfl, e2⟩

private theorem join_inj {α : Type} (text : α → Str) (z : Char) (hz : z ≠ ',') (K : α → Prop) (hne : ∀ b, ∃ c t, text b = c :: t ∧ c ≠ z)
    (l l' : List α) (x y : Str) (h : ∀ a ∈ l, ∀ b, K b → ∀ x y, text a ++ x = text b ++ y → a = b ∧ x = y) (h' : ∀ b ∈ l', K b)
    (e : join ", ".toList (l.map text) ++ z :: x = join ", ".toList (l'.map text) ++ z :: y) : l = l' ∧ x = y := by
  match l, l', h, h', e with
  | [], [], _, _, e => simpa [join] using e
  | [], b :: l', _, _, e =>
    obtain ⟨c, t, hb, hc⟩ := hne b
    rw [List.map_cons, join_cons, hb] at e
    simp [join] at e
    exact absurd e.1.symm hc
  | a :: l, [], _, _, e =>
    obtain ⟨c, t, ha, hc⟩ := hne a
    rw [List.map_cons, join_cons, ha] at e
    simp [join] at e
    exact absurd e.1 hc
  | a :: l, b :: l', h, h', e =>
    rw [List.map_cons, join_cons, List.map_cons, join_cons, List.append_assoc, List.append_assoc] at e
    obtain ⟨rfl, e1⟩ := h a (List.mem_cons_self ..) b (h' b (List.mem_cons_self ..)) _ _ e
    obtain ⟨rfl, e2⟩ := tail_inj text z hz K l l' x y (fun a ha => h a (List.mem_cons_of_mem _ ha)) (fun b hb => h' b (List.mem_cons_of_mem _ hb)) e1
    exact ⟨rfl, e2⟩

private def itemText (P : Printing) (key : Str → Str) (kv : Str × Pmod) : Str := key kv.1 ++ ": ".toList ++ kv.2.shown P

private theorem items_eq (P : Printing) (key : Str → Str) : ∀ l, Pmod.shownItems P key l = l.map (itemText P key)
  | [] => by simp [Pmod.shownItems]
  | (k, v) :: t => by simp [Pmod.shownItems, items_eq P key t, itemText]

/-- A part of what is shown of a mapping. -/
private inductive Part
  | al (a : Str)
  | st (i : Str × Pmod) (l : List (Str × Pmod))
  | rx (i : Str × Pmod) (l : List (Str × Pmod))

private def Part.text (P : Printing) : Part → Str
  | .al a => strRepr P a
  | .st i l => '{' :: (join ", ".toList ((i :: l).map (itemText P (strRepr P))) ++ ['}'])
  | .rx i l => '{' :: (join ", ".toList ((i :: l).map (itemText P (reRepr P))) ++ ['}'])

private def stPart : List (Str × Pmod) → List Part
  | [] => []
  | i :: l => [.st i l]
private def rxPart : List (Str × Pmod) → List Part
  | [] => []
  | i :: l => [.rx i l]
private def parts : Pmod → List Part
  | .mk a s r => a.toList.map .al ++ stPart s ++ rxPart r

private theorem shown_eq (P : Printing) (p : Pmod) : p.shown P = "pmod(".toList ++ (join ", ".toList ((parts p).map (Part.text P)) ++ [')']) := by
  obtain ⟨a, s, r⟩ := p
  rw [Pmod.shown, items_eq, items_eq, List.append_assoc]
  congr 3
  cases a <;> cases s <;> cases r <;> simp [parts, stPart, rxPart, dictShown, Part.text]

private theorem parts_inj {p q : Pmod} (h : parts p = parts q) : p = q := by
  obtain ⟨a, s, r⟩ := p
  obtain ⟨a', s', r'⟩ := q
  cases a <;> cases s <;> cases r <;> cases a' <;> cases s' <;> cases r' <;> simp_all [parts, stPart, rxPart]

/-- What is shown of the mapping tells it, also with something after it. -/
private def Told (P : Printing) (p : Pmod) : Prop :=
  ∀ q x y, ShortPatterns P p → ShortPatterns P q → p.shown P ++ x = q.shown P ++ y → p = q ∧ x = y

private def Part.Short (P : Printing) : Part → Prop
  | .al _ => True
  | .st i l => ∀ kv ∈ i :: l, ShortPatterns P kv.2
  | .rx i l => ∀ kv ∈ i :: l, (strRepr P kv.1).length ≤ 200 ∧ ShortPatterns P kv.2

private def Part.Told (P : Printing) : Part → Prop
  | .al _ => True
  | .st i l => ∀ kv ∈ i :: l, Props.Told P kv.2
  | .rx i l => ∀ kv ∈ i :: l, Props.Told P kv.2

private theorem str_head (P : Printing) (s : Str) : ∃ c t, strRepr P s = c :: t ∧ (c = '"' ∨ c = '\'') := ⟨_, _, rfl, quote_cases s⟩

private theorem steps_told {P : Printing} (hP : Printing.Ok P) {i i' : Str × Pmod} {l l' : List (Str × Pmod)} {x y : Str}
    (ht : ∀ kv ∈ i :: l, Told P kv.2) (hs : ∀ kv ∈ i :: l, ShortPatterns P kv.2) (hs' : ∀ kv ∈ i' :: l', ShortPatterns P kv.2)
    (e : join ", ".toList ((i :: l).map (itemText P (strRepr P))) ++ '}' :: x = join ", ".toList ((i' :: l').map (itemText P (strRepr P))) ++ '}' :: y) :
    i :: l = i' :: l' ∧ x = y := by
  refine join_inj (itemText P (strRepr P)) '}' (by decide) (fun kv => ShortPatterns P kv.2) ?_ _ _ x y ?_ hs' e
  · rintro ⟨k, v⟩
    obtain ⟨c, t, h, hc⟩ := str_head P k
    refine ⟨c, _, by simp only [itemText, h]; rfl, ?_⟩
    rcases hc with rfl | rfl <;> decide
  · rintro ⟨k, v⟩ hm ⟨k', v'⟩ hb x y e
    simp only [itemText, List.append_assoc] at e
    obtain ⟨rfl, e1⟩ := str_inj hP e
    obtain ⟨rfl, e2⟩ := ht _ hm v' x y (hs _ hm) hb (by simpa using e1)
    exact ⟨rfl, e2⟩

private theorem regxs_told {P : Printing} (hP : Printing.Ok P) {i i' : Str × Pmod} {l l' : List (Str × Pmod)} {x y : Str}
    (ht : ∀ kv ∈ i :: l, Told P kv.2) (hs : ∀ kv ∈ i :: l, (strRepr P kv.1).length ≤ 200 ∧ ShortPatterns P kv.2)
    (hs' : ∀ kv ∈ i' :: l', (strRepr P kv.1).length ≤ 200 ∧ ShortPatterns P kv.2)
    (e : join ", ".toList ((i :: l).map (itemText P (reRepr P))) ++ '}' :: x = join ", ".toList ((i' :: l').map (itemText P (reRepr P))) ++ '}' :: y) :
    i :: l = i' :: l' ∧ x = y := by
  refine join_inj (itemText P (reRepr P)) '}' (by decide) (fun kv => (strRepr P kv.1).length ≤ 200 ∧ ShortPatterns P kv.2) ?_ _ _ x y ?_ hs' e
  · rintro ⟨k, v⟩
    exact ⟨'r', _, rfl, by decide⟩
  · rintro ⟨k, v⟩ hm ⟨k', v'⟩ hb x y e
    simp only [itemText, List.append_assoc] at e
    obtain ⟨rfl, e1⟩ := re_inj hP (hs _ hm).1 hb.1 e
    obtain ⟨rfl, e2⟩ := ht _ hm v' x y (hs _ hm).2 hb.2 (by simpa using e1)
    exact ⟨rfl, e2⟩

private theorem item_head (P : Printing) (key : Str → Str) (i : Str × Pmod) (l : List (Str × Pmod)) (c : Char) (t : Str) (h : key i.1 = c :: t) :
    ∃ u, join ", ".toList ((i :: l).map (itemText P key)) = c :: u := by
  rw [List.map_cons, join_cons, itemText, h]
  exact ⟨_, rfl⟩

private theorem part_told {P : Printing} (hP : Printing.Ok P) {u v : Part} {x y : Str} (ht : u.Told P) (hs : u.Short P) (hs' : v.Short P)
    (e : u.text P ++ x = v.text P ++ y) : u = v ∧ x = y := by
  have brace : ∀ (a : Str) (x y : Str), strRepr P a ++ x = '{' :: y → False := by
    intro a x y e
    obtain ⟨c, t, h, hc⟩ := str_head P a
    rw [h] at e
    simp only [List.cons_append, List.cons.injEq] at e
    rw [e.1] at hc
    revert hc; decide
  have mixed : ∀ (i i' : Str × Pmod) (l l' : List (Str × Pmod)) (x y : Str),
      join ", ".toList ((i :: l).map (itemText P (strRepr P))) ++ x = join ", ".toList ((i' :: l').map (itemText P (reRepr P))) ++ y → False := by
    intro i i' l l' x y e
    obtain ⟨c, t, h, hc⟩ := str_head P i.1
    obtain ⟨w, hw⟩ := item_head P (strRepr P) i l c t h
    obtain ⟨w', hw'⟩ := item_head P (reRepr P) i' l' 'r' _ rfl
    rw [hw, hw'] at e
    simp only [List.cons_append, List.cons.injEq] at e
    rw [e.1] at hc
    revert hc; decide
  cases u with
  | al a =>
    cases v with
    | al b =>
      obtain ⟨rfl, e1⟩ := str_inj hP e
      exact ⟨rfl, e1⟩
    | st i l => exact (brace a _ _ e).elim
    | rx i l => exact (brace a _ _ e).elim
  | st i l =>
    cases v with
    | al b => exact (brace b _ _ e.symm).elim
    | st i' l' =>
      simp only [Part.text, List.cons_append, List.cons.injEq, true_and, List.append_assoc, List.nil_append] at e
      have := steps_told hP ht hs hs' e
      simp only [List.cons.injEq] at this
      exact ⟨by rw [this.1.1, this.1.2], this.2⟩
    | rx i' l' =>
      simp only [Part.text, List.cons_append, List.cons.injEq, true_and, List.append_assoc, List.nil_append] at e
      exact (mixed _ _ _ _ _ _ e).elim
  | rx i l =>
    cases v with
    | al b => exact (brace b _ _ e.symm).elim
    | st i' l' =>
      simp only [Part.text, List.cons_append, List.cons.injEq, true_and, List.append_assoc, List.nil_append] at e
      exact (mixed _ _ _ _ _ _ e.symm).elim
    | rx i' l' =>
      simp only [Part.text, List.cons_append, List.cons.injEq, true_and, List.append_assoc, List.nil_append] at e
      have := regxs_told hP ht hs hs' e
      simp only [List.cons.injEq] at this
      exact ⟨by rw [this.1.1, this.1.2], this.2⟩

private theorem parts_short {P : Printing} : ∀ {p : Pmod}, ShortPatterns P p → ∀ u ∈ parts p, u.Short P
  | .mk a s r, h, u, hu => by
    simp only [parts, List.mem_append, List.mem_map] at hu
    rcases hu with (⟨x, _, rfl⟩ | hu) | hu
    · trivial
    · cases s with
      | nil => cases hu
      | cons i l =>
        simp only [stPart, List.mem_singleton] at hu
        subst hu
        exact fun kv hkv k hk => h k (.step _ _ _ kv.1 kv.2 _ hkv hk)
    · cases r with
      | nil => cases hu
      | cons i l =>
        simp only [rxPart, List.mem_singleton] at hu
        subst hu
        exact fun kv hkv => ⟨h _ (.here _ _ _ kv.1 kv.2 hkv), fun k hk => h k (.regx _ _ _ kv.1 kv.2 _ hkv hk)⟩

private theorem told {P : Printing} (hP : Printing.Ok P) (p : Pmod) : Told P p := by
  match p with
  | .mk a s r =>
    have hs : ∀ kv ∈ s, Told P kv.2 := fun kv h => told hP kv.2
    have hr : ∀ kv ∈ r, Told P kv.2 := fun kv h => told hP kv.2
    have hparts : ∀ u ∈ parts (.mk a s r), u.Told P := by
      intro u hu
      simp only [parts, List.mem_append, List.mem_map] at hu
      rcases hu with (⟨x, _, rfl⟩ | hu) | hu
      · trivial
      · cases s with
        | nil => cases hu
        | cons i l =>
          simp only [stPart, List.mem_singleton] at hu
          subst hu
          exact hs
      · cases r with
        | nil => cases hu
        | cons i l =>
          simp only [rxPart, List.mem_singleton] at hu
          subst hu
          exact hr
    intro q x y hp hq e
    simp only [shown_eq, List.append_assoc, List.append_cancel_left_eq] at e
    have hne : ∀ b : Part, ∃ c t, b.text P = c :: t ∧ c ≠ ')' := by
      intro b
      cases b with
      | al b =>
        obtain ⟨c, t, h, hc⟩ := str_head P b
        exact ⟨c, t, h, by rcases hc with rfl | rfl <;> decide⟩
      | st i l => exact ⟨_, _, rfl, by decide⟩
      | rx i l => exact ⟨_, _, rfl, by decide⟩
    obtain ⟨h, e1⟩ := join_inj (Part.text P) ')' (by decide) (Part.Short P) hne _ _ x y
      (fun u hu v hv x y e => part_told hP (hparts u hu) (parts_short hp u hu) hv e) (parts_short hq) e
    exact ⟨parts_inj h, e1⟩
termination_by sizeOf p
decreasing_by
  all_goals
    subst_vars
    have h1 := List.sizeOf_lt_of_mem h
    have h2 : sizeOf kv.2 < sizeOf kv := by cases kv; simp; omega
    simp
    omega

/-- C169 (partial: patterns that take at most 200 characters, see `C169_long_refuted`). Mappings that are shown as the same text are the same: they
have the same alias, if any, and the same mappings of steps and of regular expressions, in the same order, at all depths. -/
theorem C169_told_partial (P : Printing) (hP : Printing.Ok P) (p q : Pmod) (hp : ShortPatterns P p) (hq : ShortPatterns P q)
    (h : p.shown P = q.shown P) : p = q :=
  (told hP p q [] [] hp hq (by rw [h])).1

/-- C169 fails for patterns of more than 200 characters: mappings with different ones are shown as the same text. -/
theorem C169_long_refuted (P : Printing) (hP : P.printable 'a' = true) :
    ∃ p q : Pmod, p ≠ q ∧ p.shown P = q.shown P := by
  have text : ∀ n, strRepr P (List.replicate n 'a') = '\'' :: (List.replicate n 'a' ++ ['\'']) := by
    intro n
    have hq : quoteOf (List.replicate n 'a') = '\'' := by simp [quoteOf]
    have hm : ∀ n, (List.replicate n 'a').flatMap (escChar P '\'') = List.replicate n 'a' := by
      intro n
      induction n with
      | zero => rfl
      | succ n ih => rw [List.replicate_succ, List.flatMap_cons, ih]; simp [escChar, hP]
    rw [strRepr, hq, hm]
  have cut : ∀ m n, 200 ≤ m → 200 ≤ n → (strRepr P (List.replicate m 'a')).take 200 = (strRepr P (List.replicate n 'a')).take 200 := by
    intro m n hm hn
    have h : ∀ j n, j ≤ n → ('\'' :: (List.replicate n 'a' ++ ['\''])).take (j + 1) = '\'' :: List.replicate j 'a' := by
      intro j n hn
      rw [List.take_succ_cons, List.take_append_of_le_length (by rw [List.length_replicate]; exact hn), List.take_replicate, Nat.min_eq_left hn]
    rw [text, text]
    exact (h 199 m (Nat.le_of_succ_le hm)).trans (h 199 n (Nat.le_of_succ_le hn)).symm
  have same : ∀ m n, 200 ≤ m → 200 ≤ n → reRepr P (List.replicate m 'a') = reRepr P (List.replicate n 'a') := by
    intro m n hm hn
    exact congrArg (fun t => "re.compile(".toList ++ t ++ [')']) (cut m n hm hn)
  have shown : ∀ k k', reRepr P k = reRepr P k' → (Pmod.mk none [] [(k, .mk none [] [])]).shown P = (Pmod.mk none [] [(k', .mk none [] [])]).shown P := by
    intro k k' h
    simp only [Pmod.shown, Pmod.shownItems, h]
  have differ : ∀ m n, m ≠ n → Pmod.mk none [] [(List.replicate m 'a', .mk none [] [])] ≠ Pmod.mk none [] [(List.replicate n 'a', .mk none [] [])] := by
    intro m n hmn e
    injection e with _ _ e
    injection e with e
    injection e with e
    have := congrArg List.length e
    rw [List.length_replicate, List.length_replicate] at this
    exact hmn this
  obtain ⟨m, n, hm, hn, hmn⟩ : ∃ m n : Nat, 200 ≤ m ∧ 200 ≤ n ∧ m ≠ n := ⟨200, 201, by omega, by omega, by omega⟩
  exact ⟨_, _, differ m n hmn, shown _ _ (same m n hm hn)⟩

/-- A writing of characters as assumed. -/
private def asIs : Printing := ⟨fun c => decide (32 ≤ c.toNat), fun c => ['\\', 'x', c]⟩

example : Printing.Ok asIs := ⟨fun c => ⟨'x', [c], rfl, by simp⟩, fun c d x y e => by simpa [asIs] using e⟩

/-- A mapping with an alias, a step and a regular expression in it, as it is shown. -/
private def someMaps : Pmod := .mk (some "A1/A2".toList) [("it's".toList, .mk (some []) [] [])] [("b[\"']\\d".toList, .mk (some "B".toList) [] [])]

example : someMaps.shown asIs = "pmod('A1/A2', {\"it's\": pmod('')}, {re.compile('b[\"\\']\\\\d'): pmod('B')})".toList := by
  decide +kernel

example : ShortPatterns asIs someMaps := by
  intro k hk
  cases hk with
  | here _ _ _ _ _ h => simp at h; obtain ⟨rfl, -⟩ := h; decide +kernel
  | step _ _ _ _ _ _ h h' => simp at h; obtain ⟨rfl, rfl⟩ := h; cases h' <;> simp_all
  | regx _ _ _ _ _ _ h h' => simp at h; obtain ⟨rfl, rfl⟩ := h; cases h' <;> simp_all

end Props
