import Verif.Model.SheetNames
import Verif.Props.Backend
/-
C123: the sheets that are listed are those that can be opened.
-/
namespace Props
open Py Model

private theorem listed {ok : Str → Bool} {cwd : Str} {ps : List Plugin} {wb : Str} {names : List Str}
    (h : listSheetNames ok cwd ps wb = .ok names) :
    ∃ url, ∀ id, openSheetOf ok cwd ps wb id = (openSheetBy names id).map (fun i => (url, i)) := by
  unfold listSheetNames at h
  cases e : urlAndBackend ok cwd ps wb with
  | error x => rw [e] at h; cases h
  | ok q =>
    rw [e] at h
    obtain ⟨url, p⟩ := q
    refine ⟨url, fun id => ?_⟩
    simp only at h
    simp only [openSheetOf, e, h]
    cases openSheetBy names id <;> rfl

/-- C123: every sheet that is listed can be opened by its name, and by its place in the list; both open the same sheet. -/
theorem C123_opened (ok : Str → Bool) (cwd : Str) (ps : List Plugin) (wb : Str) (names : List Str) (hn : names.Nodup)
    (h : listSheetNames ok cwd ps wb = .ok names) :
    ∃ url, ∀ i, (hi : i < names.length) →
      openSheetOf ok cwd ps wb (.text names[i]) = .ok (url, i) ∧ openSheetOf ok cwd ps wb (.num i) = .ok (url, i) := by
  obtain ⟨url, hu⟩ := listed h
  refine ⟨url, fun i hi => ⟨?_, ?_⟩⟩
  · have e : names = names.take i ++ names[i] :: names.drop (i + 1) := by
      rw [List.getElem_cons_drop, List.take_append_drop]
    have hnot : names[i] ∉ names.take i := by
      intro hm
      rw [e] at hn
      have := (List.nodup_append.1 hn).2.2 _ hm _ (List.mem_cons_self ..)
      exact this rfl
    have := C64_name (names.take i) (names.drop (i + 1)) names[i] hnot
    rw [← e, List.length_take, Nat.min_eq_left (Nat.le_of_lt hi)] at this
    rw [hu, this]
    rfl
  · have := ((C64_index names i).2.1 i).2
    rw [hu, this (by omega)]
    rfl

private theorem first_of_mem {s : Str} : ∀ {l : List Str}, s ∈ l → ∃ b a, l = b ++ s :: a ∧ s ∉ b
  | x :: t, h => by
    by_cases e : s = x
    · exact ⟨[], t, by rw [e]; rfl, by simp⟩
    · have ht : s ∈ t := by
        cases h with
        | head => exact absurd rfl e
        | tail _ h => exact h
      obtain ⟨b, a, rfl, hb⟩ := first_of_mem ht
      exact ⟨x :: b, a, rfl, by simp [e, hb]⟩

/-- C123: a sheet that can be opened is one of those listed: if it is asked by a text, it has this name, or this number. -/
theorem C123_listed (ok : Str → Bool) (cwd : Str) (ps : List Plugin) (wb : Str) (id : ShId) (url : Str) (i : Nat)
    (h : openSheetOf ok cwd ps wb id = .ok (url, i)) :
    ∃ names, listSheetNames ok cwd ps wb = .ok names ∧ i < names.length ∧
      (∀ s, id = .text s → names[i]? = some s ∨ s ∉ names ∧ ∃ n : Int, pyInt s = some n ∧ (n = i ∨ n = i - names.length)) := by
  cases hl : listSheetNames ok cwd ps wb with
  | error e =>
    exfalso
    unfold listSheetNames at hl
    cases hq : urlAndBackend ok cwd ps wb with
    | error x => simp only [openSheetOf, hq] at h; cases h
    | ok q =>
      obtain ⟨url, p⟩ := q
      rw [hq] at hl
      simp only at hl
      simp only [openSheetOf, hq, hl] at h
      cases h
  | ok names =>
    obtain ⟨u, hu⟩ := listed hl
    rw [hu] at h
    cases ho : openSheetBy names id with
    | error x => rw [ho] at h; cases h
    | ok j =>
      rw [ho] at h
      obtain rfl : j = i := by
        simp only [Except.map, Except.ok.injEq, Prod.mk.injEq] at h
        exact h.2
      have text : ∀ s, id = .text s → (j < names.length) ∧
          (names[j]? = some s ∨ s ∉ names ∧ ∃ n : Int, pyInt s = some n ∧ (n = j ∨ n = j - names.length)) := by
        rintro s rfl
        by_cases hs : s ∈ names
        · obtain ⟨b, a, rfl, hb⟩ := first_of_mem hs
          rw [C64_name b a s hb] at ho
          cases ho
          exact ⟨by simp, .inl (by simp)⟩
        · have ht := C64_text_index names s hs
          cases hp : pyInt s with
          | none => rw [ht.2 hp] at ho; cases ho
          | some n =>
            rw [ht.1 n hp] at ho
            have := ((C64_index names n).2.1 j).1 ho
            exact ⟨this.1, .inr ⟨hs, n, rfl, this.2⟩⟩
      refine ⟨names, rfl, ?_, fun s hs => (text s hs).2⟩
      cases id with
      | none => exact (((C64_index names 0).2.1 j).1 ho).1
      | num n => exact (((C64_index names n).2.1 j).1 ho).1
      | text s => exact (text s rfl).1

/-- C123: if the sheets cannot be listed, none can be opened, with the same error. -/
theorem C123_alike (ok : Str → Bool) (cwd : Str) (ps : List Plugin) (wb : Str) (e : PyErr) (id : ShId)
    (h : listSheetNames ok cwd ps wb = .error e) : openSheetOf ok cwd ps wb id = .error e := by
  unfold listSheetNames at h
  cases hq : urlAndBackend ok cwd ps wb with
  | error x =>
    rw [hq] at h
    simp only at h
    simp only [openSheetOf, hq]
    injection h with h
    rw [h]
  | ok q =>
    rw [hq] at h
    obtain ⟨url, p⟩ := q
    simp only at h
    simp only [openSheetOf, hq, h]

/-- C123: if the text is no path and no URL, listing and opening raise `ValueError`. -/
theorem C123_refused (ok : Str → Bool) (cwd : Str) (ps : List Plugin) (wb : Str) (id : ShId) (h : path2url ok cwd wb = none) :
    listSheetNames ok cwd ps wb = .error .valueError ∧ openSheetOf ok cwd ps wb id = .error .valueError := by
  simp only [listSheetNames, openSheetOf, urlAndBackend, h, and_self]

/-- C123: without a sheet given, the first one listed is opened; and none of a workbook without sheets. -/
theorem C123_first (ok : Str → Bool) (cwd : Str) (ps : List Plugin) (wb : Str) (names : List Str)
    (h : listSheetNames ok cwd ps wb = .ok names) :
    openSheetOf ok cwd ps wb .none = openSheetOf ok cwd ps wb (.num 0) ∧
    ((∃ q, openSheetOf ok cwd ps wb .none = .ok q) ↔ names ≠ []) := by
  obtain ⟨u, hu⟩ := listed h
  refine ⟨by rw [hu, hu, (C64_index names 0).1], ?_⟩
  constructor
  · rintro ⟨q, hq⟩ rfl
    rw [hu] at hq
    cases hq
  · intro hne
    have : openSheetBy names .none = .ok 0 :=
      ((C64_index names 0).2.1 0).2 ⟨List.length_pos_iff.2 hne, .inl rfl⟩
    exact ⟨(u, 0), by rw [hu, this]; rfl⟩

/-- C123: what is opened is what the text of the workbook means as a URL, by the backend that bids most for it (for the URL of that URL,
which is the same of paths and `file:` URLs, see C81); its sheets are those listed. -/
theorem C123_workbook (ok : Str → Bool) (cwd : Str) (ps : List Plugin) (wb : Str) (id : ShId) (url : Str) (i : Nat)
    (h : openSheetOf ok cwd ps wb id = .ok (url, i)) :
    path2url ok cwd wb = some url ∧ ∃ url2 p names before score after, path2url ok cwd url = some url2 ∧
      ps = before ++ p :: after ∧ p.bid url2 = some score ∧ (∀ q ∈ before, ∀ n, q.bid url2 = some n → n ≤ score) ∧
      (∀ q ∈ after, ∀ n, q.bid url2 = some n → n < score) ∧
      p.book url = .ok names ∧ listSheetNames ok cwd ps wb = .ok names := by
  unfold openSheetOf urlAndBackend at h
  cases h1 : path2url ok cwd wb with
  | none => rw [h1] at h; cases h
  | some u =>
    rw [h1] at h
    simp only at h
    cases h2 : path2url ok cwd u with
    | none => rw [h2] at h; cases h
    | some u2 =>
      rw [h2] at h
      simp only at h
      cases h3 : decideBackend (ps.map (fun p => (p, p.bid u2))) with
      | error e => rw [h3] at h; cases h
      | ok p =>
        rw [h3] at h
        simp only at h
        cases h4 : p.book u with
        | error e => rw [h4] at h; cases h
        | ok names =>
          rw [h4] at h
          simp only at h
          cases h5 : openSheetBy names id with
          | error e => rw [h5] at h; cases h
          | ok j =>
            rw [h5] at h
            cases h
            obtain ⟨pre, score, post, hb, hpre, hpost⟩ := C49_winner _ _ h3
            obtain ⟨l1, l2, rfl, e1, e2⟩ := List.map_eq_append_iff.1 hb
            obtain ⟨q, l3, rfl, e3, e4⟩ := List.map_eq_cons_iff.1 e2
            simp only [Prod.mk.injEq] at e3
            obtain ⟨rfl, e3⟩ := e3
            refine ⟨rfl, u2, q, names, l1, score, l3, h2, rfl, e3, ?_, ?_, h4, ?_⟩
            · intro x hx n hn
              exact hpre (x, x.bid u2) (by rw [← e1]; exact List.mem_map.2 ⟨x, hx, rfl⟩) n hn
            · intro x hx n hn
              exact hpost (x, x.bid u2) (by rw [← e4]; exact List.mem_map.2 ⟨x, hx, rfl⟩) n hn
            · simp only [listSheetNames, urlAndBackend, h1, h2, h3, h4]

/-! A case that meets the hypotheses: a workbook in the current folder, with two backends. -/
private def xl : Plugin := ⟨fun u => if u.reverse.take 4 = "slx.".toList then some 100 else none, fun _ => .ok ["A".toList, "0".toList]⟩
private def other : Plugin := ⟨fun _ => some 1, fun _ => .error .valueError⟩

example : listSheetNames (fun _ => true) "/w".toList [xl, other] "b.xls".toList = .ok ["A".toList, "0".toList] := by rfl
example : openSheetOf (fun _ => true) "/w".toList [xl, other] "b.xls".toList (.text "0".toList) = .ok ("file:///w/b.xls".toList, 1) := by rfl
example : listSheetNames (fun _ => true) "/w".toList [xl, other] "b.csv".toList = .error .valueError := by rfl
example : path2url (fun _ => false) "/w".toList "http://[".toList = none := by rfl

end Props
