import Verif.Lemmas.Int
import Verif.Spec.Console
import Verif.Lemmas.Str
/-
C96: a logger as an output stream; C97: pairs as text; C98: programs on the search path.
-/
namespace Props
open Py Model Spec

/-! ### C96 -/

private theorem endsWith_iff (p s : Str) : endsWith p s = true ↔ p <:+ s := by
  simp [endsWith]

private theorem dropEnding_append (m le : Str) : dropEnding (m ++ le) le = m := by
  have : endsWith le (m ++ le) = true := (endsWith_iff _ _).2 ⟨m, rfl⟩
  simp [dropEnding, this]

private theorem dropEnding_not {m le : Str} (h : ¬ le <:+ m) : dropEnding m le = m := by
  have : ¬ endsWith le m = true := fun h' => h ((endsWith_iff _ _).1 h')
  simp [dropEnding, this]

private theorem dropEnding_suffix (m le : Str) : ∃ rest, m = dropEnding m le ++ rest ∧ (rest = [] ∨ rest = le) := by
  by_cases h : le <:+ m
  · obtain ⟨t, rfl⟩ := h
    exact ⟨le, by rw [dropEnding_append], .inr rfl⟩
  · exact ⟨[], by rw [dropEnding_not h]; simp, .inl rfl⟩

/-- C96 (partial: unless the text ends with many line endings, see `C96_many_refuted`). What is written is logged
as one message without its line ending; nothing is logged when no more than a line ending is written. -/
theorem C96_write_partial (text m : Str) (h : Chomped text m) (hm : ∀ le, LineEnding le → ¬ le <:+ m) :
    logWrite text = if m = [] then none else some m := by
  have key : [['\r', '\n'], ['\n', '\r'], ['\n']].foldl dropEnding text = m := by
    simp only [List.foldl_cons, List.foldl_nil]
    have n1 := hm ['\n'] (.inl rfl)
    have n2 := hm ['\r', '\n'] (.inr (.inl rfl))
    have n3 := hm ['\n', '\r'] (.inr (.inr rfl))
    rcases h with ⟨le, hle, rfl, hlong⟩ | ⟨rfl, _⟩
    · rcases hle with rfl | rfl | rfl
      · have a1 : ¬ ['\r', '\n'] <:+ m ++ ['\n'] := fun hs => by
          have := hlong _ (.inr (.inl rfl)) hs; simp at this
        have a2 : ¬ ['\n', '\r'] <:+ m ++ ['\n'] := fun hs => by
          have := hlong _ (.inr (.inr rfl)) hs; simp at this
        rw [dropEnding_not a1, dropEnding_not a2, dropEnding_append]
      · rw [dropEnding_append, dropEnding_not n3, dropEnding_not n1]
      · have a1 : ¬ ['\r', '\n'] <:+ m ++ ['\n', '\r'] := by
          rintro ⟨t, ht⟩
          have := congrArg List.getLast? ht
          simp at this
        rw [dropEnding_not a1, dropEnding_append, dropEnding_not n1]
    · rw [dropEnding_not n2, dropEnding_not n3, dropEnding_not n1]
  unfold logWrite
  simp only [key]
  cases text with
  | cons c t => simp
  | nil =>
    rcases h with ⟨le, hle, he, _⟩ | ⟨rfl, _⟩
    · rcases hle with rfl | rfl | rfl <;> simp at he
    · simp

/-- C96. Exactly when it is so: unless before a final CR LF there is another LF or LF CR, or before a final LF CR there is another LF. -/
theorem C96_exact (text m : Str) (h : Chomped text m) :
    logWrite text = (if m = [] then none else some m) ↔
      ¬ (text = m ++ ['\r', '\n'] ∧ (['\n'] <:+ m ∨ ['\n', '\r'] <:+ m)) ∧ ¬ (text = m ++ ['\n', '\r'] ∧ ['\n'] <:+ m) := by
  have fin : ∀ x : Str, text ≠ [] → [['\r', '\n'], ['\n', '\r'], ['\n']].foldl dropEnding text = x →
      (logWrite text = (if m = [] then none else some m) ↔ x = m) := by
    intro x h0 hx
    have h1 : logWrite text = if x.isEmpty then none else some x := by
      unfold logWrite
      cases text with
      | nil => exact absurd rfl h0
      | cons c t => simp only [hx]; simp
    rw [h1]
    cases x with
    | nil => cases m <;> simp
    | cons a x => cases m <;> simp
  have short : ∀ (x le : Str), le ≠ [] → le <:+ x → dropEnding x le ≠ x := by
    intro x le hle ⟨t, ht⟩ e
    subst ht
    rw [dropEnding_append] at e
    have := congrArg List.length e
    simp at this
    exact hle this
  have len : ∀ (x le : Str), (dropEnding x le).length ≤ x.length := by
    intro x le
    obtain ⟨r, h, _⟩ := dropEnding_suffix x le
    have := congrArg List.length h
    simp at this
    omega
  rcases h with ⟨le, hle, rfl, hlong⟩ | ⟨rfl, hno⟩
  · rcases hle with rfl | rfl | rfl
    · have a1 : ¬ ['\r', '\n'] <:+ m ++ ['\n'] := fun hs => by
        have := hlong _ (.inr (.inl rfl)) hs; simp at this
      have a2 : ¬ ['\n', '\r'] <:+ m ++ ['\n'] := fun hs => by
        have := hlong _ (.inr (.inr rfl)) hs; simp at this
      rw [fin m (by simp) (by simp only [List.foldl_cons, List.foldl_nil]; rw [dropEnding_not a1, dropEnding_not a2, dropEnding_append])]
      simp
    · rw [fin _ (by simp) rfl]
      simp only [List.foldl_cons, List.foldl_nil, dropEnding_append, true_and]
      constructor
      · intro e
        refine ⟨?_, by simp⟩
        rintro (hs | hs)
        · by_cases h2 : ['\n', '\r'] <:+ m
          · have hl := len (dropEnding m ['\n', '\r']) ['\n']
            have hl2 := len m ['\n', '\r']
            have hne := short m _ (by simp) h2
            rw [e] at hl
            obtain ⟨r, h3, h4⟩ := dropEnding_suffix m ['\n', '\r']
            rcases h4 with rfl | rfl
            · rw [List.append_nil] at h3; exact hne h3.symm
            · have := congrArg List.length h3
              simp at this
              omega
          · rw [dropEnding_not h2] at e
            exact short m _ (by simp) hs e
        · have hl := len (dropEnding m ['\n', '\r']) ['\n']
          have hne := short m _ (by simp) hs
          rw [e] at hl
          obtain ⟨r, h3, h4⟩ := dropEnding_suffix m ['\n', '\r']
          rcases h4 with rfl | rfl
          · rw [List.append_nil] at h3; exact hne h3.symm
          · have := congrArg List.length h3
            simp at this
            omega
      · rintro ⟨h1, _⟩
        rw [dropEnding_not (fun h => h1 (.inr h)), dropEnding_not (fun h => h1 (.inl h))]
    · have a1 : ¬ ['\r', '\n'] <:+ m ++ ['\n', '\r'] := by
        rintro ⟨t, ht⟩
        have := congrArg List.getLast? ht
        simp at this
      rw [fin _ (by simp) rfl]
      simp only [List.foldl_cons, List.foldl_nil]
      rw [dropEnding_not a1, dropEnding_append]
      constructor
      · intro e
        refine ⟨by simp, fun h => ?_⟩
        exact short m _ (by simp) h.2 e
      · rintro ⟨_, h2⟩
        exact dropEnding_not (fun h => h2 ⟨trivial, h⟩)
  · have e : [['\r', '\n'], ['\n', '\r'], ['\n']].foldl dropEnding m = m := by
      simp only [List.foldl_cons, List.foldl_nil]
      rw [dropEnding_not (hno _ (.inr (.inl rfl))), dropEnding_not (hno _ (.inr (.inr rfl))), dropEnding_not (hno _ (.inl rfl))]
    refine ⟨fun _ => ⟨fun h => ?_, fun h => ?_⟩, fun _ => ?_⟩
    · have := congrArg List.length h.1; simp at this
    · have := congrArg List.length h.1; simp at this
    · cases m with
      | nil => rfl
      | cons c t => exact (fin _ (by simp) e).2 rfl

/-- Both sides of it occur. -/
example : Chomped "a\n\n".toList "a\n".toList ∧ logWrite "a\n\n".toList = some "a\n".toList ∧
    Chomped "a\n\n\r".toList "a\n".toList ∧ logWrite "a\n\n\r".toList = some "a".toList := by
  refine ⟨.inl ⟨['\n'], .inl rfl, rfl, ?_⟩, by decide +kernel, .inl ⟨['\n', '\r'], .inr (.inr rfl), rfl, ?_⟩, by decide +kernel⟩
  · rintro le (rfl | rfl | rfl) ⟨t, ht⟩
    · simp
    · have := congrArg (fun x => x.reverse.take 2) ht
      simp at this
    · have := congrArg List.getLast? ht
      simp at this
  · rintro le (rfl | rfl | rfl) _ <;> simp

/-- C96. Nothing but line endings is ever lost. -/
theorem C96_nothing_else_lost (text : Str) : ∃ rest, (∀ c ∈ rest, c = '\n' ∨ c = '\r') ∧
    ((logWrite text = none ∧ text = rest) ∨ ∃ m, m ≠ [] ∧ logWrite text = some m ∧ text = m ++ rest) := by
  obtain ⟨r1, h1, e1⟩ := dropEnding_suffix text ['\r', '\n']
  obtain ⟨r2, h2, e2⟩ := dropEnding_suffix (dropEnding text ['\r', '\n']) ['\n', '\r']
  obtain ⟨r3, h3, e3⟩ := dropEnding_suffix (dropEnding (dropEnding text ['\r', '\n']) ['\n', '\r']) ['\n']
  refine ⟨r3 ++ r2 ++ r1, ?_, ?_⟩
  · intro c hc
    simp only [List.mem_append] at hc
    rcases hc with (hc | hc) | hc
    · rcases e3 with rfl | rfl <;> simp at hc; exact .inl hc
    · rcases e2 with rfl | rfl <;> simp at hc; exact hc
    · rcases e1 with rfl | rfl <;> simp at hc; exact hc.symm
  · generalize hm : dropEnding (dropEnding (dropEnding text ['\r', '\n']) ['\n', '\r']) ['\n'] = m at h3
    have ht : text = m ++ (r3 ++ r2 ++ r1) := by
      rw [h3] at h2
      rw [h2] at h1
      simp only [List.append_assoc] at h1 ⊢
      exact h1
    have hl : logWrite text = if text.isEmpty then none else if m.isEmpty then none else some m := by
      unfold logWrite
      simp only [List.foldl_cons, List.foldl_nil, hm]
    cases m with
    | nil =>
      refine .inl ⟨?_, by simpa using ht⟩
      rw [hl]; simp
    | cons c t =>
      refine .inr ⟨c :: t, by simp, ?_, ht⟩
      rw [hl]
      have : text.isEmpty = false := by rw [ht]; rfl
      simp [this]

/-- C96. What `print` does, writing a line and then its ending, logs that line once. -/
theorem C96_print (line : Str) (hne : line ≠ []) (h : ∀ c ∈ line, c ≠ '\n' ∧ c ≠ '\r') :
    logWrite line = some line ∧ logWrite ['\n'] = none ∧ logWrite (line ++ ['\n']) = some line := by
  have hno : ∀ le, LineEnding le → ¬ le <:+ line := by
    rintro le hle ⟨t, rfl⟩
    rcases hle with rfl | rfl | rfl
    · exact (h '\n' (by simp)).1 rfl
    · exact (h '\n' (by simp)).1 rfl
    · exact (h '\n' (by simp)).1 rfl
  refine ⟨?_, rfl, ?_⟩
  · rw [C96_write_partial line line (.inr ⟨rfl, hno⟩) hno]; simp [hne]
  · rw [C96_write_partial (line ++ ['\n']) line (.inl ⟨['\n'], .inl rfl, rfl, ?_⟩) hno]
    · simp [hne]
    · intro le hle hs
      rcases hle with rfl | rfl | rfl
      · simp
      · exfalso
        obtain ⟨t, ht⟩ := hs
        have : line = t ++ ['\r'] := by
          have e : t ++ ['\r', '\n'] = (t ++ ['\r']) ++ ['\n'] := by simp
          rw [e] at ht
          exact (List.append_cancel_right ht).symm
        exact (h '\r' (by rw [this]; simp)).2 rfl
      · exfalso
        obtain ⟨t, ht⟩ := hs
        have := congrArg List.getLast? ht
        simp at this

example : Chomped "two\r\n".toList "two".toList := by
  refine .inl ⟨['\r', '\n'], .inr (.inl rfl), rfl, ?_⟩
  rintro le (rfl | rfl | rfl) _ <;> simp

/-- C96 fails for a text that ends with many line endings: they are not all kept but one. -/
theorem C96_many_refuted : Chomped "a\n\r\n".toList "a\n".toList ∧ logWrite "a\n\r\n".toList = some "a".toList := by
  refine ⟨.inl ⟨['\r', '\n'], .inr (.inl rfl), rfl, ?_⟩, rfl⟩
  rintro le (rfl | rfl | rfl) _ <;> simp

/-! ### C97 -/

private theorem width_ok (indent len : Nat) (hi : 0 < indent) : ColumnWidth indent len (keyWidth indent len) := by
  have hdm : indent * (len / indent) + len % indent = len := Nat.div_add_mod len indent
  have hlt : len % indent < indent := Nat.mod_lt len hi
  refine ⟨⟨_, ?_, rfl⟩, ?_, ?_⟩
  · omega
  · unfold keyWidth
    by_cases hr : len % indent = 0
    · simp only [hr, if_true, Nat.add_zero]
      have : len = (len / indent) * indent := by rw [Nat.mul_comm]; omega
      calc len = (len / indent) * indent := this
        _ ≤ _ := Nat.mul_le_mul_right indent (by omega)
    · simp only [hr, if_false]
      have h1 : (len / indent + 1) * indent ≤ max 1 (len / indent + 1) * indent := Nat.mul_le_mul_right indent (by omega)
      have h2 : (len / indent + 1) * indent = indent * (len / indent) + indent := by rw [Nat.add_mul, Nat.mul_comm]; simp
      omega
  · intro t ht hl
    unfold keyWidth
    apply Nat.mul_le_mul_right
    have hd : len / indent ≤ t := by
      have := Nat.div_le_div_right (c := indent) hl
      rwa [Nat.mul_div_cancel t hi] at this
    by_cases hr : len % indent = 0
    · simp only [hr, if_true]; omega
    · simp only [hr, if_false]
      have : len / indent < t := by
        apply Nat.lt_of_le_of_ne hd
        intro e
        rw [← e, Nat.mul_comm] at hl
        omega
      omega

private theorem item_line (indent : Nat) (hi : 0 < indent) (k v : Str) : PairLine indent k v (formatItem indent (k, v)) := by
  have hw := width_ok indent k.length hi
  refine ⟨keyWidth indent k.length - k.length, ?_, rfl⟩
  have := hw.2.1
  rwa [Nat.add_sub_cancel' this]

/-- C97. There is one line for each pair, in order: the key in a column as wide as the smallest fitting multiple
of the indentation, an equals sign and the value. -/
theorem C97_lines (indent : Nat) (hi : 0 < indent) (items : List (Str × Str)) (hne : items ≠ [])
    (hl : ∀ kv ∈ items, '\n' ∉ kv.1 ∧ '\n' ∉ kv.2) :
    (splitOn '\n' (formatPairs indent items)).length = items.length ∧
    ∀ (n : Nat) k v, items[n]? = some (k, v) → ∃ line, (splitOn '\n' (formatPairs indent items))[n]? = some line ∧ PairLine indent k v line := by
  have h : splitOn '\n' (formatPairs indent items) = items.map (formatItem indent) := by
    unfold formatPairs
    apply splitOn_join
    · simpa using hne
    · intro p hp
      obtain ⟨kv, hkv, rfl⟩ := List.mem_map.1 hp
      have := hl kv hkv
      simp only [formatItem, List.mem_append, List.mem_replicate, List.mem_cons, List.not_mem_nil, or_false, not_or]
      refine ⟨⟨⟨this.1, ?_⟩, by decide⟩, this.2⟩
      rintro ⟨_, e⟩; exact absurd e (by decide)
  rw [h]
  refine ⟨by simp, ?_⟩
  intro n k v hn
  exact ⟨_, by rw [List.getElem?_map, hn]; rfl, item_line indent hi k v⟩

private theorem noSep_cons {c : Char} {l : Str} (h : ¬ " = ".toList <:+: c :: l) : ¬ " = ".toList <:+: l :=
  fun e => h (List.infix_cons_iff.2 (.inr e))

private theorem noSep_cut : ∀ (a b x y : Str), ¬ " = ".toList <:+: a ++ [' '] → ¬ " = ".toList <:+: b ++ [' '] →
    a ++ ' ' :: '=' :: ' ' :: x = b ++ ' ' :: '=' :: ' ' :: y → a = b := by
  have first : ∀ (b x y : Str), ¬ " = ".toList <:+: b ++ [' '] → ' ' :: '=' :: ' ' :: x = b ++ ' ' :: '=' :: ' ' :: y → b = [] := by
    intro b x y hb e
    match b, hb, e with
    | [], _, _ => rfl
    | [c], _, e =>
      simp only [List.cons_append, List.nil_append, List.cons.injEq] at e
      exact absurd e.2.1 (by decide)
    | [c, d], hb, e =>
      simp only [List.cons_append, List.nil_append, List.cons.injEq] at e
      obtain ⟨rfl, rfl, -⟩ := e
      exact absurd (List.infix_refl _) hb
    | c :: d :: f :: b, hb, e =>
      simp only [List.cons_append, List.cons.injEq] at e
      obtain ⟨rfl, rfl, rfl, -⟩ := e
      exact absurd ⟨[], b ++ [' '], rfl⟩ hb
  intro a
  induction a with
  | nil => exact fun b x y _ hb e => (first b x y hb e).symm
  | cons c a ih =>
    intro b x y ha hb e
    cases b with
    | nil => exact first _ _ _ ha e.symm
    | cons d b =>
      simp only [List.cons_append, List.cons.injEq] at e
      rw [e.1, ih b x y (noSep_cons ha) (noSep_cons hb) e.2]

private theorem noSep_pad {k : Str} (h : ¬ " = ".toList <:+: k ++ [' ']) : ∀ p, ¬ " = ".toList <:+: k ++ List.replicate p ' ' ++ [' ']
  | 0 => by simpa using h
  | p + 1 => by
    intro e
    rw [List.infix_concat_iff] at e
    rcases e with e | e
    · obtain ⟨t, ht⟩ := e
      have := congrArg List.reverse ht
      simp [List.replicate_succ'] at this
    · rw [List.replicate_succ', ← List.append_assoc] at e
      exact noSep_pad h p e

private theorem drop_pad {k k' : Str} (hk : k.getLast? ≠ some ' ') (hk' : k'.getLast? ≠ some ' ') {p p' : Nat}
    (e : k ++ List.replicate p ' ' = k' ++ List.replicate p' ' ') : k = k' := by
  have strip : ∀ (k : Str) (p : Nat), k.getLast? ≠ some ' ' → ((k ++ List.replicate p ' ').reverse.dropWhile (· == ' ')).reverse = k := by
    intro k p hk
    rw [List.reverse_append, List.reverse_replicate]
    have h1 : ∀ (r : Str), r.head? ≠ some ' ' → (List.replicate p ' ' ++ r).dropWhile (· == ' ') = r := by
      intro r hr
      induction p with
      | zero =>
        cases r with
        | nil => rfl
        | cons c r =>
          have : (c == ' ') = false := by simpa using hr
          simp [this]
      | succ p ih => simpa [List.replicate_succ] using ih
    rw [h1 _ (by rwa [List.head?_reverse]), List.reverse_reverse]
  rw [← strip k p hk, e, strip k' p' hk']

private theorem item_inj (indent : Nat) {k v k' v' : Str} (hk : ClearKey k) (hk' : ClearKey k')
    (h : formatItem indent (k, v) = formatItem indent (k', v')) : k = k' ∧ v = v' := by
  have hc : k ++ List.replicate (keyWidth indent k.length - k.length) ' ' = k' ++ List.replicate (keyWidth indent k'.length - k'.length) ' ' := by
    refine noSep_cut _ _ v v' (noSep_pad hk.2 _) (noSep_pad hk'.2 _) ?_
    simpa [formatItem] using h
  have hkk := drop_pad hk.1 hk'.1 hc
  subst hkk
  refine ⟨rfl, ?_⟩
  simp only [formatItem, List.append_assoc] at h
  simpa using h

/-- C97 (partial: keys that are clear, and pairs of one line, see `C97_ambiguous_refuted`). The pairs can be told from
the text. -/
theorem C97_told_partial (indent : Nat) (items items' : List (Str × Str))
    (hl : ∀ kv ∈ items, ClearKey kv.1 ∧ '\n' ∉ kv.1 ∧ '\n' ∉ kv.2) (hl' : ∀ kv ∈ items', ClearKey kv.1 ∧ '\n' ∉ kv.1 ∧ '\n' ∉ kv.2)
    (h : formatPairs indent items = formatPairs indent items') : items = items' := by
  have notnl : ∀ (l : List (Str × Str)), (∀ kv ∈ l, ClearKey kv.1 ∧ '\n' ∉ kv.1 ∧ '\n' ∉ kv.2) →
      ∀ p ∈ l.map (formatItem indent), '\n' ∉ p := by
    intro l hl p hp
    obtain ⟨kv, hkv, rfl⟩ := List.mem_map.1 hp
    have := hl kv hkv
    simp only [formatItem, List.mem_append, List.mem_replicate, List.mem_cons, List.not_mem_nil, or_false, not_or]
    refine ⟨⟨⟨this.2.1, ?_⟩, by decide⟩, this.2.2⟩
    rintro ⟨_, e⟩; exact absurd e (by decide)
  have inj : ∀ (l l' : List (Str × Str)), (∀ kv ∈ l, ClearKey kv.1) → (∀ kv ∈ l', ClearKey kv.1) →
      l.map (formatItem indent) = l'.map (formatItem indent) → l = l' := by
    intro l
    induction l with
    | nil => intro l' _ _ e; cases l' with | nil => rfl | cons x t => simp at e
    | cons a t ih =>
      intro l' h1 h2 e
      cases l' with
      | nil => simp at e
      | cons b t' =>
        simp only [List.map_cons, List.cons.injEq] at e
        obtain ⟨q1, q2⟩ := item_inj indent (k := a.1) (v := a.2) (k' := b.1) (v' := b.2) (h1 a (by simp)) (h2 b (by simp)) e.1
        rw [ih t' (fun kv hkv => h1 kv (by simp [hkv])) (fun kv hkv => h2 kv (by simp [hkv])) e.2,
          show a = b from Prod.ext q1 q2]
  have nonempty : ∀ l : List (Str × Str), l ≠ [] → formatPairs indent l ≠ [] := by
    intro l hne e
    cases l with
    | nil => exact hne rfl
    | cons a t =>
      have : (' ' : Char) ∈ formatPairs indent (a :: t) := by
        unfold formatPairs
        cases t with
        | nil => simp [join, formatItem]
        | cons b t => simp [join, formatItem]
      rw [e] at this; cases this
  by_cases h0 : items = []
  · by_cases h0' : items' = []
    · rw [h0, h0']
    · exact absurd (by rw [← h, h0]; rfl) (nonempty items' h0')
  · by_cases h0' : items' = []
    · exact absurd (by rw [h, h0']; rfl) (nonempty items h0)
    · apply inj items items' (fun kv hkv => (hl kv hkv).1) (fun kv hkv => (hl' kv hkv).1)
      have e := congrArg (splitOn '\n') h
      unfold formatPairs at e
      rwa [splitOn_join _ (by simpa using h0) (notnl items hl), splitOn_join _ (by simpa using h0') (notnl items' hl')] at e

/-- C97 fails for keys that end with a blank or have an equals sign between blanks, and for values of many lines: different pairs give the same
text. -/
theorem C97_ambiguous_refuted :
    formatPairs 4 [("a".toList, "1".toList)] = formatPairs 4 [("a ".toList, "1".toList)] ∧
    formatPairs 1 [("a".toList, "b = 1".toList)] = formatPairs 1 [("a = b".toList, "1".toList)] ∧
    formatPairs 4 [("a".toList, "1\nb    = 2".toList)] = formatPairs 4 [("a".toList, "1".toList), ("b".toList, "2".toList)] := by
  decide +kernel

example : formatPairs 16 [("name".toList, "x".toList), ("a-key-of-20-letters-".toList, "y".toList)] =
    "name             = x\na-key-of-20-letters-             = y".toList := by decide +kernel

/-- Keys with blanks and equals signs that are clear. -/
example : ClearKey "a key".toList ∧ ClearKey "x == y".toList ∧ ClearKey "= 1".toList := by unfold ClearKey; decide +kernel

/-! ### C98 -/

private theorem folders_unique {path : Str} {fs : List Str} (h : Folders path fs) :
    fs = ((splitOn ':' path).map (stripBy (· == '"'))).filter (fun f => !f.isEmpty) := by
  obtain ⟨parts, rfl, hne, hc, rfl⟩ := h
  rw [splitOn_join parts hne hc]
  congr 1
  funext f
  cases f <;> rfl

private theorem osJoin_eq : osJoin = inFolder := by
  funext a b
  unfold osJoin inFolder
  have h1 : startsWith ['/'] b = (b.head? == some '/') := by cases b <;> simp [startsWith, List.isPrefixOf, Bool.beq_comm (a := '/')]
  have h2 : endsWith ['/'] a = (a.getLast? == some '/') := by
    rcases List.eq_nil_or_concat a with e | ⟨t, c, e⟩
    · subst e; rfl
    · subst e; simp [endsWith, List.isSuffixOf, List.isPrefixOf, Bool.beq_comm (a := '/')]
  rw [h1, h2]
  cases hb : b.head? with
  | none =>
    cases ha : a.getLast? with
    | none => have : a = [] := by simpa using ha
              subst this; simp
    | some d =>
      have : a ≠ [] := by intro e; subst e; simp at ha
      by_cases hd : d = '/'
      · subst hd; simp
      · simp [this, hd]
  | some c =>
    by_cases hc : c = '/'
    · subst hc; simp
    · cases ha : a.getLast? with
      | none => have : a = [] := by simpa using ha
                subst this; simp [hc]
      | some d =>
        have : a ≠ [] := by intro e; subst e; simp at ha
        by_cases hd : d = '/'
        · subst hd; simp [hc]
        · simp [this, hd, hc]

/-- C98. The programs found are exactly the executable files of that name, or of that name with `.bat`, `com` or `.exe`
after it, in the folders of the search path. -/
theorem C98_found (isExec : Str → Bool) (env : Option Str) (program : Str) (path : Option Str) (p : Str) (fs : List Str)
    (hp : (path = some p ∧ p ≠ []) ∨ ((path = none ∨ path = some []) ∧ env = some p)) (hf : Folders p fs) :
    ∃ res, pyWhere isExec env program path = .ok res ∧ ∀ f, f ∈ res ↔
      isExec f = true ∧ ∃ folder ∈ fs, ∃ ext, (ext = "" ∨ ext = ".bat" ∨ ext = "com" ∨ ext = ".exe") ∧ f = inFolder folder program ++ ext.toList := by
  rw [← osJoin_eq]
  have hfs := folders_unique hf
  have e : pyWhere isExec env program path = .ok (fs.flatMap
      (fun folder => (progExts.map (fun e => osJoin folder program ++ e)).filter isExec)) := by
    unfold pyWhere
    rcases hp with ⟨rfl, hne⟩ | ⟨rfl | rfl, rfl⟩
    · cases p with
      | nil => exact absurd rfl hne
      | cons c s => simp only [← hfs]
    · simp only [← hfs]
    · simp only [← hfs]
  refine ⟨_, e, ?_⟩
  intro f
  simp only [List.mem_flatMap, List.mem_filter, List.mem_map, progExts]
  constructor
  · rintro ⟨folder, h1, ⟨ext, h2, rfl⟩, h3⟩
    refine ⟨h3, folder, h1, ?_⟩
    simp only [List.mem_cons, List.not_mem_nil, or_false] at h2
    rcases h2 with rfl | rfl | rfl | rfl
    · exact ⟨"", by simp, by simp⟩
    · exact ⟨".bat", by simp, rfl⟩
    · exact ⟨"com", by simp, rfl⟩
    · exact ⟨".exe", by simp, rfl⟩
  · rintro ⟨h1, folder, h2, ext, h3, rfl⟩
    refine ⟨folder, h2, ⟨ext.toList, ?_, rfl⟩, h1⟩
    rcases h3 with rfl | rfl | rfl | rfl <;> simp

/-- C98. The programs found come in the order of the folders, and in each folder the one without ending first; `which` is the first of them. -/
theorem C98_exact (isExec : Str → Bool) (p program : Str) (fs : List Str) (hf : Folders p fs) :
    pyWhere isExec (some p) program none = .ok ((candidates program fs).filter isExec) ∧
    whichProg isExec (some p) .other program = .ok ((candidates program fs).find? isExec) := by
  have hfs := folders_unique hf
  have e : pyWhere isExec (some p) program none = .ok ((candidates program fs).filter isExec) := by
    simp only [pyWhere, ← hfs, osJoin_eq, candidates, List.filter_flatMap, progExts]
    rfl
  exact ⟨e, by simp only [whichProg, whereProg, e, List.head?_filter]⟩

/-- C98 (partial: when no file of that name with such an ending can be executed, unless the program is in the same folder or one before, see
`C98_endings_refuted`). On systems without a command `where`, `which` is the program in the first folder of the search path that has it. -/
theorem C98_which_partial (isExec : Str → Bool) (p program : Str) (fs : List Str) (hf : Folders p fs)
    (hno : ∀ (i : Nat) folder, fs[i]? = some folder → ∀ ext ∈ [".bat", "com", ".exe"], isExec (inFolder folder program ++ ext.toList) = true →
      ∃ (k : Nat) (g : Str), k ≤ i ∧ fs[k]? = some g ∧ isExec (inFolder g program) = true) :
    ∃ r, whichProg isExec (some p) .other program = .ok r ∧ FirstIn isExec program fs r := by
  refine ⟨_, (C98_exact isExec p program fs hf).2, ?_⟩
  clear hf
  induction fs with
  | nil => exact .none
  | cons f fs ih =>
    cases he : isExec (inFolder f program) with
    | true =>
      have : (candidates program (f :: fs)).find? isExec = some (inFolder f program) := by
        simp [candidates, he]
      rw [this]
      exact .here f fs he
    | false =>
      have hx : ∀ ext ∈ [".bat", "com", ".exe"], isExec (inFolder f program ++ ext.toList) = false := by
        intro ext hext
        cases h : isExec (inFolder f program ++ ext.toList) with
        | false => rfl
        | true =>
          obtain ⟨k, g, h1, h2, h3⟩ := hno 0 f rfl ext hext h
          have : k = 0 := by omega
          subst this
          cases h2
          rw [he] at h3
          cases h3
      have : (candidates program (f :: fs)).find? isExec = (candidates program fs).find? isExec := by
        have a := hx ".bat" (by simp)
        have b := hx "com" (by simp)
        have c := hx ".exe" (by simp)
        have d : isExec (inFolder f program ++ "".toList) = false := by simpa using he
        show (["", ".bat", "com", ".exe"].map (fun ext => inFolder f program ++ ext.toList) ++ candidates program fs).find? isExec = _
        simp only [List.map_cons, List.map_nil, List.cons_append, List.nil_append, List.find?_cons, a, b, c, d]
      rw [this]
      refine .later f fs _ he (ih ?_)
      intro i folder hi ext hext h
      obtain ⟨k, g, h1, h2, h3⟩ := hno (i + 1) folder hi ext hext h
      cases k with
      | zero =>
        cases h2
        rw [he] at h3
        cases h3
      | succ k => exact ⟨k, g, by omega, h2, h3⟩

/-- The program in a folder, and one with an ending in the same folder and in a later one. -/
example : ∃ (isExec : Str → Bool), isExec "/a/telcom".toList = true ∧ isExec "/b/tel.exe".toList = true ∧
    ∃ r, whichProg isExec (some "/a:/b".toList) .other "tel".toList = .ok r ∧ FirstIn isExec "tel".toList ["/a".toList, "/b".toList] r := by
  refine ⟨fun f => f == "/a/tel".toList || f == "/a/telcom".toList || f == "/b/tel.exe".toList, by decide +kernel, by decide +kernel,
    C98_which_partial _ _ _ _ ⟨["/a".toList, "/b".toList], by decide +kernel, by simp, by decide +kernel, by decide +kernel⟩ ?_⟩
  intro i folder hi ext _ _
  exact ⟨0, "/a".toList, Nat.zero_le _, rfl, by decide +kernel⟩

private theorem lines_split (paths : List Str) (h : ∀ p ∈ paths, '\n' ∉ p) :
    splitOn '\n' (paths.flatMap (fun p => p ++ ['\n'])) = paths ++ [[]] := by
  induction paths with
  | nil => rfl
  | cons p ps ih =>
    simp only [List.flatMap_cons, List.append_assoc, List.singleton_append]
    rw [splitOn_append p _ (h p (by simp)), ih (fun q hq => h q (by simp [hq]))]
    rfl

/-- C98. Where there is a command `where`, its answer is taken: the files that it lists, one on each line, are found, and `which` is the
first of them; when it says that there is none, none is found. -/
theorem C98_command (isExec : Str → Bool) (env : Option Str) (program : Str) (files : List Str)
    (hf : ∀ f ∈ files, '\n' ∉ f ∧ (∃ c, f.head? = some c ∧ isSpaceU c = false) ∧ ∃ c, f.getLast? = some c ∧ isSpaceU c = false) :
    whereProg isExec env (.output (files.flatMap (fun f => f ++ ['\n']))) program = .ok files ∧
    whichProg isExec env (.output (files.flatMap (fun f => f ++ ['\n']))) program = .ok files.head? ∧
    whereProg isExec env .failed program = .ok [] ∧ whichProg isExec env .failed program = .ok none := by
  have hw : whereProg isExec env (.output (files.flatMap (fun f => f ++ ['\n']))) program = .ok files := by
    unfold whereProg
    simp only
    rw [lines_split files (fun f h => (hf f h).1)]
    have hm : (files ++ [[]]).map (stripBy isSpaceU) = files ++ [[]] := by
      rw [List.map_append]
      congr 1
      conv => rhs; rw [← List.map_id files]
      apply List.map_congr_left
      intro f h
      obtain ⟨_, ⟨c, h1, h2⟩, d, h3, h4⟩ := hf f h
      exact stripBy_eq_self (fun e he => by rw [h1] at he; cases he; exact h2) (fun e he => by rw [h3] at he; cases he; exact h4)
    rw [hm, List.filter_append]
    have : files.filter (fun s => !s.isEmpty) = files := by
      rw [List.filter_eq_self]
      intro f h
      obtain ⟨_, ⟨c, h1, _⟩, _⟩ := hf f h
      cases f with
      | nil => cases h1
      | cons => rfl
    rw [this]
    simp
  exact ⟨hw, by simp only [whichProg, hw], rfl, rfl⟩

example : whichProg (fun _ => false) none (.output "C:\\a b\\x.exe\nC:\\x.exe\n".toList) "x".toList = .ok (some "C:\\a b\\x.exe".toList) :=
  (C98_command (fun _ => false) none "x".toList ["C:\\a b\\x.exe".toList, "C:\\x.exe".toList]
    (by simp only [List.mem_cons, List.not_mem_nil, or_false]
        rintro f (rfl | rfl)
        · exact ⟨by decide, ⟨'C', rfl, by decide⟩, 'e', rfl, by decide⟩
        · exact ⟨by decide, ⟨'C', rfl, by decide⟩, 'e', rfl, by decide⟩)).2.1

example : Folders "/bin::\"/usr/bin\"".toList ["/bin".toList, "/usr/bin".toList] :=
  ⟨["/bin".toList, [], "\"/usr/bin\"".toList], by decide +kernel, by simp, by decide +kernel, by decide +kernel⟩

/-- C98. With no search path given and none in the environment, looking for a program fails with a `KeyError`; it does
not answer that there is no such program. -/
theorem C98_no_path (isExec : Str → Bool) (program : Str) (path : Option Str) (hp : path = none ∨ path = some []) :
    pyWhere isExec none program path = .error .lookupError ∧
      whichProg isExec none .other program = .error .lookupError := by
  rcases hp with rfl | rfl <;> exact ⟨rfl, rfl⟩

/-- C98 fails when a file of that name, with one of the endings after it, is in a folder before: asked for `tel`, and
having `/b/tel`, the answer is `/a/telcom`. -/
theorem C98_endings_refuted : ∃ (isExec : Str → Bool), isExec "/b/tel".toList = true ∧ isExec "/a/tel".toList = false ∧
    (match whichProg isExec (some "/a:/b".toList) .other "tel".toList with | .ok r => r | .error _ => none) = some "/a/telcom".toList :=
  ⟨fun f => f == "/b/tel".toList || f == "/a/telcom".toList, by decide +kernel, by decide +kernel, by decide +kernel⟩

/-- C98 fails for empty parts of the search path, which mean the current folder. -/
theorem C98_current_folder_refuted (program : Str) (isExec : Str → Bool) :
    (match pyWhere isExec (some ":".toList) program none with | .ok r => r | .error _ => []) = [] := rfl

end Props
