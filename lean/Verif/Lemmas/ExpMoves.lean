import Verif.Lemmas.RegexSound
import Verif.Lemmas.ParseEdge
import Verif.Lemmas.Int
import Verif.Spec.ExpMoves
set_option linter.unusedSimpArgs false
namespace Model
open Py Spec

theorem decVal_range {c : Char} {d : Nat} (h : decVal c = some d) :
    ∃ z ∈ ndZeros, z ≤ c.toNat ∧ c.toNat < z + 10 := by
  unfold decVal at h
  split at h
  · exact ⟨0x30, by decide, by omega, by omega⟩
  · split at h
    · rename_i z hz
      have h1 := List.find?_some hz
      have h2 := List.mem_of_find?_eq_some hz
      simp at h1
      exact ⟨z, h2, h1⟩
    · simp at h

theorem isDigitU_not {c : Char} (h : isDigitU c = true) (n : Nat)
    (hn : ∀ z ∈ ndZeros, ¬ (z ≤ n ∧ n < z + 10)) : c.toNat ≠ n := by
  obtain ⟨d, hd⟩ := Option.isSome_iff_exists.1 h
  obtain ⟨z, hz, h1⟩ := decVal_range hd
  rintro rfl
  exact hn z hz h1

theorem isDigitU_ne {c d : Char} (h : isDigitU c = true) (hd : isDigitU d = false) : c ≠ d := by
  rintro rfl; rw [h] at hd; simp at hd

theorem isDigitU_not_space {c : Char} (h : isDigitU c = true) : isIntSpace c = false := by
  cases hs : isSpaceU c with
  | false => simp [isIntSpace, hs]
  | true =>
    exfalso
    have hx : c.toNat ∈ [9, 10, 11, 12, 13, 28, 29, 30, 31, 32, 133, 160, 5760, 8192, 8193, 8194, 8195, 8196, 8197, 8198,
      8199, 8200, 8201, 8202, 8232, 8233, 8239, 8287, 12288] := by simpa [isSpaceU] using hs
    have key : ∀ n ∈ [9, 10, 11, 12, 13, 28, 29, 30, 31, 32, 133, 160, 5760, 8192, 8193, 8194, 8195, 8196, 8197, 8198,
      8199, 8200, 8201, 8202, 8232, 8233, 8239, 8287, 12288], ∀ z ∈ ndZeros, ¬ (z ≤ n ∧ n < z + 10) := by decide
    exact isDigitU_not h _ (key _ hx) rfl

theorem isDigitU_upper {c : Char} (h : isDigitU c = true) : upperChar c = c := by
  have key : ∀ n ∈ 0x131 :: 0x17f :: List.range' 0x61 26, ∀ z ∈ ndZeros, ¬ (z ≤ n ∧ n < z + 10) := by decide
  have h1 := isDigitU_not h 0x131 (key _ (by simp))
  have h2 := isDigitU_not h 0x17f (key _ (by simp))
  have h3 : ¬ (0x61 ≤ c.toNat ∧ c.toNat ≤ 0x7a) := by
    intro hh
    exact isDigitU_not h c.toNat (key _ (by simp [List.mem_range'_1]; omega)) rfl
  simp [upperChar, h1, h2, h3]

def numVal (n : Str) : Nat := n.foldl (fun acc c => acc * 10 + (decVal c).getD 0) 0

theorem intTail_digitsU (acc : Nat) (s : Str) (h : ∀ c ∈ s, isDigitU c = true) :
    intTail acc s = some (s.foldl (fun acc c => acc * 10 + (decVal c).getD 0) acc) := by
  induction s generalizing acc with
  | nil => rfl
  | cons c t ih =>
    have hc := h c (by simp)
    obtain ⟨d, hd⟩ := Option.isSome_iff_exists.1 hc
    have hu : c ≠ '_' := isDigitU_ne hc (by decide)
    unfold intTail
    split
    · rename_i heq; simp at heq
    · rename_i heq; simp at heq; exact absurd heq.1 hu
    · rename_i c' cs _ heq
      simp at heq
      obtain ⟨rfl, rfl⟩ := heq
      rw [hd]
      simp only
      rw [ih _ (fun x hx => h x (by simp [hx]))]
      simp [hd]

theorem pyInt_digitsU (s : Str) (hne : s ≠ []) (h : ∀ c ∈ s, isDigitU c = true) :
    pyInt s = some ((numVal s : Nat) : Int) := by
  have hs : stripBy isIntSpace s = s := by
    apply stripBy_eq_self
    · intro c hc; exact isDigitU_not_space (h c (List.mem_of_mem_head? hc))
    · intro c hc; exact isDigitU_not_space (h c (List.mem_of_getLast? hc))
  cases s with
  | nil => exact absurd rfl hne
  | cons c t =>
    have hc := h c (by simp)
    obtain ⟨d, hd⟩ := Option.isSome_iff_exists.1 hc
    have h1 : c ≠ '-' := isDigitU_ne hc (by decide)
    have h2 : c ≠ '+' := isDigitU_ne hc (by decide)
    unfold pyInt
    rw [hs]
    split
    · rename_i heq; simp at heq; exact absurd heq.1 h1
    · rename_i heq; simp at heq; exact absurd heq.1 h2
    · simp only [intNat, hd]
      rw [intTail_digitsU _ _ (fun x hx => h x (by simp [hx]))]
      simp [numVal, hd]

/-- A letter of the upper-cased text. -/
def isUp (c : Char) : Bool := "LURD".toList.contains c

theorem isUp_facts {c : Char} (h : isUp c = true) : isLURD c = true ∧ isDigitU c = false ∧ c ≠ '\n' ∧ c ≠ '?' := by
  have key : ∀ c ∈ "LURD".toList, isLURD c = true ∧ isDigitU c = false ∧ c ≠ '\n' ∧ c ≠ '?' := by decide
  exact key c (by simpa [isUp] using h)

theorem digitU_not_lurd {c : Char} (h : isDigitU c = true) : isLURD c = false := by
  have key : ∀ c ∈ "LURDlurd".toList, isDigitU c = false := by decide
  cases hl : isLURD c with
  | false => rfl
  | true =>
    have := key c (by simpa [isLURD] using hl)
    rw [h] at this; simp at this

theorem split_none {x : Char} {t : Str} (h : ∀ y, t.head? = some y → isDigitU y = false) :
    reExpSplit.match? (x :: t) = none := by
  cases t with
  | nil => by_cases hx : isLURD x = true <;> simp [Re.match?, reExpSplit, m_plus, hx]
  | cons y t =>
    have := h y rfl
    by_cases hx : isLURD x = true <;> simp [Re.match?, reExpSplit, m_plus, hx, this]

theorem split_none' {x : Char} {t : Str} (h : isLURD x = false) : reExpSplit.match? (x :: t) = none := by
  simp [Re.match?, reExpSplit, h]

theorem split_hit {d : Char} {n u : Str} (hd : isLURD d = true) (hne : n ≠ []) (hn : ∀ c ∈ n, isDigitU c = true)
    (hu : ∀ y, u.head? = some y → isDigitU y = false) :
    reExpSplit.match? (d :: (n ++ u)) = some (u, Caps.empty) := by
  simp only [Re.match?, reExpSplit, m_seq, m_cls_cons, hd, if_true]
  exact plus_cls_max _ n u _ _ _ hne hn hu rfl

theorem search_hit {ds : Str} {d : Char} {n u : Str} (hds : ∀ c ∈ ds, isDigitU c = false) (hd : isLURD d = true)
    (hdd : isDigitU d = false)
    (hne : n ≠ []) (hn : ∀ c ∈ n, isDigitU c = true) (hu : ∀ y, u.head? = some y → isDigitU y = false) :
    reExpSplit.search (ds ++ d :: (n ++ u)) = some (ds, u, Caps.empty) := by
  induction ds with
  | nil => rw [List.nil_append, Re.search, split_hit hd hne hn hu]
  | cons x ds ih =>
    rw [List.cons_append, Re.search, split_none, ih (fun c hc => hds c (by simp [hc]))]
    · rfl
    · intro y hy
      cases ds with
      | nil => simp at hy; subst hy; exact hdd
      | cons z ds => simp at hy; subst hy; exact hds _ (by simp)

theorem search_none {ds : Str} (hds : ∀ c ∈ ds, isDigitU c = false) : reExpSplit.search ds = none := by
  induction ds with
  | nil => rfl
  | cons x ds ih =>
    rw [Re.search, split_none, ih (fun c hc => hds c (by simp [hc]))]
    · rfl
    · intro y hy
      cases ds with
      | nil => simp at hy
      | cons z ds => simp at hy; subst hy; exact hds _ (by simp)

/-- Items of the upper-cased text, with counts in digits. -/
def NItem (it : ExpItem) : Prop := match it with
  | .run ds => ds ≠ [] ∧ ∀ c ∈ ds, isUp c = true
  | .counted d n => isUp d = true ∧ n ≠ [] ∧ ∀ c ∈ n, isDigitU c = true

theorem text_head {items : List ExpItem} (h : ∀ it ∈ items, NItem it) :
    ∀ y, (expString items).head? = some y → isUp y = true := by
  intro y hy
  match items with
  | [] => simp [expString] at hy
  | .run ds :: rest =>
    obtain ⟨hne, hd⟩ := h (.run ds) (by simp)
    cases ds with
    | nil => exact absurd rfl hne
    | cons z ds => simp [expString, ExpItem.text] at hy; subst hy; exact hd _ (by simp)
  | .counted d n :: rest =>
    obtain ⟨hd, _⟩ := h (.counted d n) (by simp)
    simp [expString, ExpItem.text] at hy; subst hy; exact hd

def startsRun : List ExpItem → Prop
  | .run _ :: _ => True
  | _ => False

theorem noAdj_tail {it : ExpItem} {rest : List ExpItem} (h : NoAdjRuns (it :: rest)) : NoAdjRuns rest := by
  match it, rest with
  | .counted _ _, _ => exact h
  | .run _, [] => trivial
  | .run _, .counted _ _ :: _ => exact h
  | .run _, .run _ :: _ => exact absurd h (by simp [NoAdjRuns])

theorem noAdj_run {ds : Str} {rest : List ExpItem} (h : NoAdjRuns (.run ds :: rest)) : ¬ startsRun rest := by
  match rest with
  | [] => simp [startsRun]
  | .counted _ _ :: _ => simp [startsRun]
  | .run _ :: _ => exact absurd h (by simp [NoAdjRuns])

theorem split_aux (k : Nat) : ∀ (rest : List ExpItem), rest.length ≤ k → (∀ it ∈ rest, NItem it) → NoAdjRuns rest →
    ¬ startsRun rest → ∀ ds : Str, (∀ c ∈ ds, isUp c = true) → ∀ n, (ds ++ expString rest).length ≤ n →
      (reExpSplit.splitGrp n (ds ++ expString rest)).filter (fun v => v ≠ []) =
        (if ds = [] then [] else [ds]) ++ rest.map ExpItem.text := by
  induction k with
  | zero =>
    intro rest hk hit ha hs ds hds n hn
    have : rest = [] := List.length_eq_zero_iff.1 (by omega)
    subst this
    have hsn : reExpSplit.search ds = none := search_none (fun c hc => (isUp_facts (hds c hc)).2.1)
    by_cases he : ds = []
    · subst he; cases n <;> simp [expString, Re.splitGrp, hsn]
    · cases n <;> simp [expString, Re.splitGrp, hsn, he]
  | succ k ih =>
    intro rest hk hit ha hs ds hds n hn
    match rest with
    | [] =>
      have hsn : reExpSplit.search ds = none := search_none (fun c hc => (isUp_facts (hds c hc)).2.1)
      by_cases he : ds = []
      · subst he; cases n <;> simp [expString, Re.splitGrp, hsn]
      · cases n <;> simp [expString, Re.splitGrp, hsn, he]
    | .run _ :: _ => exact absurd trivial hs
    | .counted d m :: rest =>
      obtain ⟨hd, hne, hm⟩ := hit (.counted d m) (by simp)
      have hit' : ∀ it ∈ rest, NItem it := fun i hi => hit i (by simp [hi])
      have ha' := noAdj_tail ha
      have hh := text_head hit'
      have hsr := search_hit (ds := ds) (u := expString rest) (fun c hc => (isUp_facts (hds c hc)).2.1)
        (isUp_facts hd).1 (isUp_facts hd).2.1 hne hm (fun y hy => (isUp_facts (hh y hy)).2.1)
      have e : expString (.counted d m :: rest) = d :: (m ++ expString rest) := by
        simp [expString, ExpItem.text]
      rw [e] at hn ⊢
      cases n with
      | zero => simp at hn
      | succ n =>
        have hlen : (expString rest).length ≤ n := by simp at hn; omega
        have hrest : (reExpSplit.splitGrp n (expString rest)).filter (fun v => v ≠ []) = rest.map ExpItem.text := by
          match rest with
          | .run ds2 :: rest2 =>
            obtain ⟨hne2, hd2⟩ := hit' (.run ds2) (by simp)
            have := ih rest2 (by simp at hk ⊢; omega) (fun i hi => hit' i (by simp [hi])) (noAdj_tail ha') (noAdj_run ha')
              ds2 hd2 n (by simpa [expString, ExpItem.text] using hlen)
            simpa [expString, ExpItem.text, hne2] using this
          | [] =>
            have := ih [] (by simp) hit' ha' (by simp [startsRun]) [] (by simp) n (by simpa using hlen)
            simpa using this
          | .counted d2 m2 :: rest2 =>
            have := ih (.counted d2 m2 :: rest2) (by simp at hk ⊢; omega) hit' ha' (by simp [startsRun]) [] (by simp) n
              (by simpa using hlen)
            simpa using this
        rw [Re.splitGrp, hsr]
        simp only
        have hpiece : ((ds ++ d :: (m ++ expString rest)).drop ds.length).take
            ((ds ++ d :: (m ++ expString rest)).length - ds.length - (expString rest).length) = d :: m := by
          have e1 : (ds ++ d :: (m ++ expString rest)).drop ds.length = (d :: m) ++ expString rest := by simp
          have e2 : (ds ++ d :: (m ++ expString rest)).length - ds.length - (expString rest).length = (d :: m).length := by
            simp; omega
          rw [e1, e2, List.take_left']
          rfl
        rw [hpiece, List.filter_cons, List.filter_cons, hrest]
        by_cases he : ds = [] <;> simp [he, ExpItem.text]

/-- The text is split into its items. -/
theorem split_items (items : List ExpItem) (h : ∀ it ∈ items, NItem it) (ha : NoAdjRuns items)
    (n : Nat) (hn : (expString items).length ≤ n) :
      (reExpSplit.splitGrp n (expString items)).filter (fun v => v ≠ []) = items.map ExpItem.text := by
  match items with
  | .run ds :: rest =>
    obtain ⟨hne, hd⟩ := h (.run ds) (by simp)
    have := split_aux rest.length rest (by simp) (fun i hi => h i (by simp [hi])) (noAdj_tail ha) (noAdj_run ha)
      ds hd n (by simpa [expString, ExpItem.text] using hn)
    simpa [expString, ExpItem.text, hne] using this
  | [] =>
    have := split_aux 0 [] (by simp) h ha (by simp [startsRun]) [] (by simp) n (by simpa using hn)
    simpa using this
  | .counted d m :: rest =>
    have := split_aux (rest.length + 1) (.counted d m :: rest) (by simp) h ha (by simp [startsRun]) [] (by simp) n
      (by simpa using hn)
    simpa using this

theorem dirsOf_up {ds : Str} (h : ∀ c ∈ ds, isUp c = true) : dirsOf ds = some (ds.filterMap letterDir) := by
  induction ds with
  | nil => rfl
  | cons c ds ih =>
    have hc : c = 'L' ∨ c = 'U' ∨ c = 'R' ∨ c = 'D' := by simpa [isUp] using h c (by simp)
    rw [dirsOf, ih (fun x hx => h x (by simp [hx]))]
    rcases hc with rfl | rfl | rfl | rfl <;> simp [dirOf, letterDir]

theorem piece_run {ds : Str} (hne : ds ≠ []) (h : ∀ c ∈ ds, isUp c = true) :
    parsePiece ds = some ⟨ds.filterMap letterDir, none⟩ := by
  have hm : reExpParse.match? ds = some ([], Caps.empty.put "moves" ds) := by
    simp only [Re.match?, reExpParse, Re.seqs, m_seq]
    have := grp_of (α := Str × Caps) (a := .plus (.cls isLURD)) (n := "moves") (t := ds) (u := []) (c := Caps.empty) (c' := Caps.empty)
      (k := fun s' c' => (Re.opt (Re.grp "times" ((Re.chr '?').alt (Re.plus (.cls isDigitU))))).m s' c'
        (fun s' c' => Re.eos.m s' c' (fun s' c => some (s', c)))) (r := ([], Caps.empty.put "moves" ds))
      (fun k' hk' => plus_cls_max _ ds [] _ _ _ hne (fun c hc => (isUp_facts (h c hc)).1) (by simp) hk')
      (by simp [m_grp, m_plus, atEnd])
    simpa using this
  simp only [parsePiece, hm, put_same, Option.bind_some, dirsOf_up h]
  rw [put_other _ _ _ _ (by decide)]
  rfl

theorem piece_counted {d : Char} {n : Str} (hd : isUp d = true) (hne : n ≠ []) (hn : ∀ c ∈ n, isDigitU c = true) :
    parsePiece (d :: n) = some ⟨[d].filterMap letterDir, some (numVal n)⟩ := by
  have hm : reExpParse.match? (d :: n) = some ([], (Caps.empty.put "moves" [d]).put "times" n) := by
    simp only [Re.match?, reExpParse, Re.seqs, m_seq]
    have ht : (Re.opt (Re.grp "times" ((Re.chr '?').alt (Re.plus (.cls isDigitU))))).m n (Caps.empty.put "moves" [d])
        (fun s' c' => Re.eos.m s' c' (fun s' c => some (s', c))) =
        some (([] : Str), (Caps.empty.put "moves" [d]).put "times" n) := by
      rw [m_opt]
      have hg := grp_of (α := Str × Caps) (a := (Re.chr '?').alt (Re.plus (.cls isDigitU))) (n := "times") (t := n) (u := [])
        (c := Caps.empty.put "moves" [d]) (c' := Caps.empty.put "moves" [d])
        (k := fun s' c' => Re.eos.m s' c' (fun s' c => some (s', c)))
        (r := ([], (Caps.empty.put "moves" [d]).put "times" n)) (by
          intro k' hk'
          rw [m_alt, plus_cls_max _ n [] _ _ _ hne hn (by simp) hk']
          cases n with
          | nil => exact absurd rfl hne
          | cons y n =>
            have : y ≠ '?' := isDigitU_ne (hn y (by simp)) (by decide)
            simp [this]) (by simp [atEnd])
      rw [List.append_nil] at hg
      rw [hg, Option.some_or]
    have := grp_of (α := Str × Caps) (a := .plus (.cls isLURD)) (n := "moves") (t := [d]) (u := n) (c := Caps.empty) (c' := Caps.empty)
      (k := fun s' c' => (Re.opt (Re.grp "times" ((Re.chr '?').alt (Re.plus (.cls isDigitU))))).m s' c'
        (fun s' c' => Re.eos.m s' c' (fun s' c => some (s', c)))) (r := ([], (Caps.empty.put "moves" [d]).put "times" n))
      (fun k' hk' => plus_cls_max _ [d] n _ _ _ (by simp) (by simp [(isUp_facts hd).1]) (by
        intro y hy
        exact digitU_not_lurd (hn y (List.mem_of_mem_head? hy))) hk') ht
    simpa using this
  simp only [parsePiece, hm, put_same]
  rw [put_other _ _ _ _ (by decide)]
  simp only [put_same, Option.bind_some, dirsOf_up (ds := [d]) (by simpa using hd), pyInt_digitsU n hne hn]
  simp

/-- The item as normalised by the parser. -/
def normItem : ExpItem → ExpItem
  | .run ds => .run (upper ds)
  | .counted d n => .counted (upperChar d) (replace1 '?' ['1'] n)

theorem letterDir_up {c : Char} (h : (letterDir c).isSome) : isUp (upperChar c) = true ∧
    letterDir (upperChar c) = letterDir c ∧ c ≠ '?' := by
  have key : c ∈ "LURDlurd".toList := by
    unfold letterDir at h
    simp only [String.reduceToList, List.mem_cons, List.not_mem_nil, or_false]
    by_cases h1 : c = 'L' ∨ c = 'l'
    · rcases h1 with h1 | h1 <;> simp [h1]
    · by_cases h2 : c = 'U' ∨ c = 'u'
      · rcases h2 with h1 | h1 <;> simp [h1]
      · by_cases h3 : c = 'R' ∨ c = 'r'
        · rcases h3 with h1 | h1 <;> simp [h1]
        · by_cases h4 : c = 'D' ∨ c = 'd'
          · rcases h4 with h1 | h1 <;> simp [h1]
          · simp [h1, h2, h3, h4] at h
  have all : ∀ c ∈ "LURDlurd".toList, isUp (upperChar c) = true ∧
    letterDir (upperChar c) = letterDir c ∧ c ≠ '?' := by decide
  exact all c key

theorem replace1_append (o : Char) (w : Str) (a b : Str) : replace1 o w (a ++ b) = replace1 o w a ++ replace1 o w b := by
  induction a with
  | nil => rfl
  | cons x a ih => simp [replace1, ih]

theorem replace1_id (o : Char) (w : Str) (a : Str) (h : o ∉ a) : replace1 o w a = a := by
  induction a with
  | nil => rfl
  | cons x a ih =>
    simp at h
    simp [replace1, ih h.2, Ne.symm h.1]

theorem count_facts {n : Str} (h : ∀ c ∈ n, isCountChar c = true) :
    upper n = n ∧ (∀ c ∈ replace1 '?' ['1'] n, isDigitU c = true) ∧
    (replace1 '?' ['1'] n).length = n.length ∧
    ∀ acc, (replace1 '?' ['1'] n).foldl (fun acc c => acc * 10 + (decVal c).getD 0) acc =
      n.foldl (fun acc c => acc * 10 + (if c = '?' then 1 else (decVal c).getD 0)) acc := by
  induction n with
  | nil => simp [upper, replace1]
  | cons x n ih =>
    obtain ⟨h1, h2, h3, h4⟩ := ih (fun c hc => h c (by simp [hc]))
    have hx := h x (by simp)
    by_cases hq : x = '?'
    · subst hq
      refine ⟨by simp [upper] at h1 ⊢; exact ⟨by decide, h1⟩, ?_, by simp [replace1, h3], ?_⟩
      · intro c hc
        simp [replace1] at hc
        rcases hc with rfl | hc
        · decide
        · exact h2 c hc
      · intro acc
        simp [replace1, h4]; rfl
    · have hd : isDigitU x = true := by simpa [isCountChar, hq] using hx
      refine ⟨by simp [upper] at h1 ⊢; exact ⟨isDigitU_upper hd, h1⟩, ?_, by simp [replace1, hq, h3], ?_⟩
      · intro c hc
        simp [replace1, hq] at hc
        rcases hc with rfl | hc
        · exact hd
        · exact h2 c hc
      · intro acc
        simp [replace1, hq, h4]

theorem upper_append (a b : Str) : upper (a ++ b) = upper a ++ upper b := by simp [upper]

theorem norm_text {it : ExpItem} (h : it.Ok) : replace1 '?' ['1'] (upper it.text) = (normItem it).text := by
  match it with
  | .run ds =>
    simp only [ExpItem.text, normItem]
    apply replace1_id
    intro hm
    simp [upper] at hm
    obtain ⟨c, hc, e⟩ := hm
    have := (isUp_facts (letterDir_up (h.2 c hc)).1).2.2.2
    exact this e
  | .counted d n =>
    obtain ⟨hd, hne, hn⟩ := h
    have h1 := letterDir_up hd
    have hq := (isUp_facts h1.1).2.2.2
    simp only [ExpItem.text, normItem]
    rw [show upper (d :: n) = upperChar d :: upper n from rfl, (count_facts hn).1]
    simp [replace1, hq]

theorem norm_item {it : ExpItem} (h : it.Ok) : NItem (normItem it) := by
  match it with
  | .run ds =>
    refine ⟨?_, ?_⟩
    · simp [upper]; exact h.1
    · intro c hc
      simp [upper] at hc
      obtain ⟨x, hx, rfl⟩ := hc
      exact (letterDir_up (h.2 x hx)).1
  | .counted d n =>
    obtain ⟨hd, hne, hn⟩ := h
    obtain ⟨_, h2, h3, _⟩ := count_facts hn
    refine ⟨(letterDir_up hd).1, ?_, h2⟩
    intro e; rw [e] at h3; simp at h3; exact hne (List.length_eq_zero_iff.1 h3.symm)

theorem norm_string {items : List ExpItem} (h : ∀ it ∈ items, it.Ok) :
    replace1 '?' ['1'] (upper (expString items)) = expString (items.map normItem) := by
  induction items with
  | nil => rfl
  | cons it items ih =>
    simp only [expString, List.flatMap_cons, List.map_cons] at ih ⊢
    rw [upper_append, replace1_append, norm_text (h it (by simp)), ih (fun i hi => h i (by simp [hi]))]

theorem norm_adj {items : List ExpItem} (h : NoAdjRuns items) : NoAdjRuns (items.map normItem) := by
  induction items with
  | nil => trivial
  | cons it items ih =>
    have h' := ih (noAdj_tail h)
    match it, items with
    | .counted _ _, _ => exact h'
    | .run _, [] => trivial
    | .run _, .counted _ _ :: _ => exact h'
    | .run _, .run _ :: _ => exact absurd h (by simp [NoAdjRuns])

theorem piece_item {it : ExpItem} (h : it.Ok) : parsePiece (normItem it).text = some it.meaning := by
  have hn := norm_item h
  match it with
  | .run ds =>
    simp only [normItem, ExpItem.text] at hn ⊢
    rw [piece_run hn.1 hn.2]
    simp only [ExpItem.meaning, Option.some.injEq, ExpGroup.mk.injEq, and_true]
    have : ∀ c ∈ ds, (letterDir c).isSome := h.2
    clear hn h
    induction ds with
    | nil => rfl
    | cons x ds ih =>
      have hx := (letterDir_up (this x (by simp))).2.1
      simp only [upper, List.map_cons, List.filterMap_cons, hx] at ih ⊢
      rw [ih (fun c hc => this c (by simp [hc]))]
  | .counted d n =>
    simp only [normItem, ExpItem.text] at hn ⊢
    rw [piece_counted hn.1 hn.2.1 hn.2.2]
    have hx := (letterDir_up h.1).2.1
    have hc := (count_facts h.2.2).2.2.2 0
    simp only [ExpItem.meaning, List.filterMap_cons, hx, countVal, numVal, hc]

theorem pieces_items {items : List ExpItem} (h : ∀ it ∈ items, it.Ok) :
    parsePieces ((items.map normItem).map ExpItem.text) = some (items.map ExpItem.meaning) := by
  induction items with
  | nil => rfl
  | cons it items ih =>
    simp only [List.map_cons, parsePieces, piece_item (h it (by simp)), ih (fun i hi => h i (by simp [hi]))]

end Model
