import Verif.Lemmas.UrlOpen
/-
What is opened for a workbook named by a path or URL (C79-C82).

`ok` is the test of `urllib` for host names, of which only is assumed that it accepts the empty one; `U` is the
decoding of UTF-8.
-/
namespace Props
open Py Model Spec Lemmas

/-- A decoder of UTF-8, to show that the assumption about `U` can be met. -/
def anyUtf8 : Utf8Lib where
  dec b := match ByteArray.utf8Decode? b.toByteArray with
    | some a => a.toList
    | none => []
  dec_utf8 s := by
    have : (utf8 s).toByteArray = List.utf8Encode s := rfl
    simp only [this, List.utf8Decode?_utf8Encode]

theorem folderLike_iff {p : Str} {a : List Str} {s : Str} (h : splitOn '/' p = a ++ [s]) :
    isFolder s = true ↔ FolderLike p := by
  unfold isFolder FolderLike
  rw [decide_eq_true_iff]
  constructor
  · exact fun hs => ⟨a, s, h, hs⟩
  · rintro ⟨a', s', h', hs⟩
    rw [h] at h'
    have := (List.append_inj' h' (by simp)).2
    simp only [List.cons.injEq, and_true] at this
    rw [this]; exact hs

theorem open_plain {ok : Str → Bool} (U : Utf8Lib) {cwd : List Str} {p : Str} {slash : Bool} (hok : ok [] = true)
    (hc : ∀ n ∈ cwd, FileName n) (hp : PlainPath p) (hs : slash = true ↔ FolderLike p) :
    openWorkbook ok U (absText cwd) p = some (.file
      (if (pathTextOf (meant cwd p) slash).length > 200 then pathTextOf (meant cwd p) slash ++ uncPrefix
       else pathTextOf (meant cwd p) slash)) := by
  obtain ⟨a, s, he⟩ := splitOn_snoc p
  have hb : isFolder s = slash := by
    have := folderLike_iff he
    rw [← hs] at this
    cases h1 : isFolder s <;> cases h2 : slash <;> simp [h1, h2] at this ⊢
  unfold openWorkbook
  rw [path2url_plain hok hc hp he, hb]
  exact openBook_canon hok (urlNames_good hc hp) (readsL_urlNames hp)

/-- **C79** A workbook named by a plain path is the file that the path means in the working folder: `.` and `..` are
walked along, and the text of what is opened ends with a slash where the path is written like that of a folder.
What is missing: paths of more than 200 characters and paths with special characters, see below. -/
theorem C79_opens_meant_partial (ok : Str → Bool) (U : Utf8Lib) (cwd : List Str) (p : Str) (slash : Bool)
    (hok : ok [] = true) (hc : ∀ n ∈ cwd, FileName n) (hp : PlainPath p) (hs : slash = true ↔ FolderLike p)
    (hl : (pathTextOf (meant cwd p) slash).length ≤ 200) :
    openWorkbook ok U (absText cwd) p = some (.file (pathTextOf (meant cwd p) slash)) := by
  rw [open_plain U hok hc hp hs, if_neg (by omega)]

/-- **C79** fails for every plain path whose absolute text has more than 200 characters: four characters are put
*after* it, so another file is opened than the one meant. -/
theorem C79_long_path_refuted (ok : Str → Bool) (U : Utf8Lib) (cwd : List Str) (p : Str) (slash : Bool)
    (hok : ok [] = true) (hc : ∀ n ∈ cwd, FileName n) (hp : PlainPath p) (hs : slash = true ↔ FolderLike p)
    (hl : 200 < (pathTextOf (meant cwd p) slash).length) :
    openWorkbook ok U (absText cwd) p = some (.file (pathTextOf (meant cwd p) slash ++ "\\\\?\\".toList)) := by
  rw [open_plain U hok hc hp hs, if_pos hl]
  rfl

theorem openBook_local {ok : Str → Bool} {U : Utf8Lib} {url n p q f t : Str}
    (h : urlparse ok [] url = some (⟨fileScheme, n, p, q, f⟩, [])) (hu : unquote U p = t)
    (hd : isDirText p = false) (hl : t.length ≤ 200) : openBook ok U url = some (.file t) := by
  have : ¬ t.length > 200 := by omega
  unfold openBook
  rw [h]
  simp only [ne_eq, not_true_eq_false, if_false, if_true, urlpath2path, hu, hd, Bool.false_and,
    Bool.false_eq_true, this]

theorem open_percent (U : Utf8Lib) :
    openWorkbook (fun _ => true) U "/w".toList "%41.xls".toList = some (.file "/w/A.xls".toList) := by
  have h1 : path2url (fun _ => true) "/w".toList "%41.xls".toList = some "file:///w/%41.xls".toList := by
    decide +kernel
  have h2 : urlparse (fun _ => true) [] "file:///w/%41.xls".toList =
      some (⟨fileScheme, [], "/w/%41.xls".toList, [], []⟩, []) := by decide +kernel
  have h3 : unquote U "/w/%41.xls".toList = "/w/A.xls".toList := by
    have : "/w/%41.xls".toList = "/w/".toList ++ ((String.utf8EncodeChar 'A').flatMap pct ++ ".xls".toList) := by
      decide +kernel
    rw [this]
    exact unquote_reads U (Reads.append (Reads.refl (by decide)) (.coded 'A' (pctBytes_pct _) (Reads.refl (by decide))))
  unfold openWorkbook
  rw [h1]
  exact openBook_local h2 h3 (by decide) (by decide)

/-- **C79** fails for other characters: the paths in the working folder `/w` on the left are opened as what
stands on the right. -/
theorem C79_special_characters_refuted (U : Utf8Lib) :
    let opens (p : String) (q : String) : Prop :=
      openWorkbook (fun _ => true) U "/w".toList p.toList = some (.file q.toList)
    opens "%41.xls" "/w/A.xls" ∧ opens "a#b.xls" "/w/a" ∧ opens "a?b.xls" "/w/a" ∧
    opens "a\\b.xls" "/w/a/b.xls" ∧ opens "a\tb.xls" "/w/ab.xls" ∧ opens " a.xls" "/w/a.xls" ∧
    opens "a:b.xls" "/a:/b.xls" ∧ opens "//a/b.xls" "/b.xls" ∧ opens "/a//../b.xls" "/a/b.xls" ∧
    openWorkbook (fun _ => true) U "/w".toList "ab:c.xls".toList = some (.remote "ab:c.xls".toList) := by
  exact ⟨open_percent U, rfl, rfl, rfl, rfl, rfl, rfl, rfl, rfl, rfl⟩

/-- A plain path up and down again, from a folder whose name has to be encoded. -/
example : PlainPath "../d e/x.xls".toList ∧ FileName "a#b é".toList ∧
    meant ["a#b é".toList, "c".toList] "../d e/x.xls".toList =
      ["a#b é".toList, "d e".toList, "x.xls".toList] ∧
    ¬ FolderLike "../d e/x.xls".toList := by
  have hs : splitOn '/' "../d e/x.xls".toList = ["..".toList, "d e".toList] ++ ["x.xls".toList] := by decide
  refine ⟨⟨by decide, by decide, ?_, ?_, fun h => absurd h (by decide)⟩, ⟨by decide, by decide, by decide, by decide⟩, by decide, ?_⟩
  · intro c t e
    have : c = '.' := by simp at e; exact e.1.symm
    subst this; decide
  · intro a b e
    have : ':' ∈ "../d e/x.xls".toList := by rw [e]; simp
    exact absurd this (by decide)
  · rw [← folderLike_iff hs]; decide

/-- What is opened there. -/
example : openWorkbook (fun _ => true) anyUtf8 (absText ["c d".toList]) "../x.xls".toList =
    some (.file "/x.xls".toList) := by rfl

/-- Long plain paths. -/
example (n : Nat) (hn : 200 ≤ n) : PlainPath (List.replicate n 'x') ∧ ¬ FolderLike (List.replicate n 'x') ∧
    200 < (pathTextOf (meant [] (List.replicate n 'x')) false).length := by
  have hm : ∀ c ∈ List.replicate n 'x', c = 'x' := fun c hc => (List.mem_replicate.1 hc).2
  have hsl : '/' ∉ List.replicate n 'x' := fun h => absurd (hm _ h) (by decide)
  have hs := splitOn_of_not_mem hsl
  have hlen : (List.replicate n 'x').length = n := List.length_replicate
  have h1 : (List.replicate n 'x') ≠ [] := fun e => by rw [e] at hlen; simp at hlen; omega
  have h2 : (List.replicate n 'x') ≠ ['.'] := fun e => by rw [e] at hlen; simp at hlen; omega
  have h3 : (List.replicate n 'x') ≠ ['.', '.'] := fun e => by rw [e] at hlen; simp at hlen; omega
  refine ⟨⟨h1, ?_, ?_, ?_, ?_⟩, ?_, ?_⟩
  · intro c hc; rw [hm c hc]; decide
  · intro c t e; rw [hm c (by rw [e]; simp)]; decide
  · intro a b e; exact absurd (hm ':' (by rw [e]; simp)) (by decide)
  · intro _ a b e; exact absurd (hm '/' (by rw [e]; simp)) (by decide)
  · rw [← folderLike_iff (a := []) hs]; simp only [isFolder, h1, h2, h3]; decide
  · have : meant [] (List.replicate n 'x') = [List.replicate n 'x'] := by
      unfold meant
      rw [hs]
      simp only [walk, h1, h2, h3, or_self, if_false, ite_self, List.nil_append]
    rw [this]
    simp [pathTextOf, absText, join]
    omega

/-! ### C80 -/

theorem fileUrl_eq (ns : List Str) (slash : Bool) : fileUrl ns slash = canon (ns.map quote) slash := by
  unfold fileUrl canon urlText pathTextOf absText
  rw [quote_append, quote_slash, quote_join]
  by_cases h : slash = true ∧ ns ≠ []
  · have h' : slash = true ∧ ns.map quote ≠ [] := ⟨h.1, by simpa using h.2⟩
    rw [if_pos h, if_pos h']; simp [fileScheme, quote_slash]; rfl
  · have h' : ¬(slash = true ∧ ns.map quote ≠ []) := by simpa using h
    rw [if_neg h, if_neg h']; simp [fileScheme]; rfl

theorem quoted_good {ns : List Str} (h : ∀ n ∈ ns, FileName n) : ∀ n ∈ ns.map quote, UrlName n := by
  intro n hn
  obtain ⟨m, hm, rfl⟩ := List.mem_map.1 hn
  exact urlName_quote (h m hm)

/-- **C80** The percent-encoded `file:` URL of an absolute path opens that path, whatever characters its names
have and whatever the working folder is. What is missing: paths of more than 200 characters. -/
theorem C80_file_url_opens_partial (ok : Str → Bool) (U : Utf8Lib) (cwd ns : List Str) (slash : Bool)
    (hok : ok [] = true) (hc : ∀ n ∈ cwd, FileName n) (hn : ∀ n ∈ ns, FileName n)
    (hl : (pathTextOf ns slash).length ≤ 200) :
    openWorkbook ok U (absText cwd) (fileUrl ns slash) = some (.file (pathTextOf ns slash)) := by
  unfold openWorkbook
  rw [fileUrl_eq, path2url_canon hok hc (quoted_good hn)]
  have := openBook_canon (ok := ok) (U := U) (slash := slash) hok (quoted_good hn) (readsL_quote ns)
  rw [if_neg (by omega)] at this
  exact this

private theorem pctBytes_chars {bs : List UInt8} {w : Str} (h : PctBytes bs w) : ∀ c ∈ w, c ∉ ['#', '?', '/', '\\', '\t', '\r', '\n'] := by
  have hd : ∀ n c, HexDigit n c → c ∉ ['#', '?', '/', '\\', '\t', '\r', '\n'] := by
    intro n c h
    have hm : c ∈ "0123456789ABCDEF0123456789abcdef".toList := by
      have e : "0123456789ABCDEF0123456789abcdef".toList = "0123456789ABCDEF".toList ++ "0123456789abcdef".toList := by decide
      rw [e]
      rcases h with h | h
      · exact List.mem_append_left _ (List.mem_of_getElem? h)
      · exact List.mem_append_right _ (List.mem_of_getElem? h)
    have : ∀ c ∈ "0123456789ABCDEF0123456789abcdef".toList, c ∉ ['#', '?', '/', '\\', '\t', '\r', '\n'] := by decide
    exact this c hm
  induction h with
  | nil => intro c hc; cases hc
  | cons h1 h2 _ ih =>
    intro c hc
    rcases List.mem_cons.1 hc with rfl | hc
    · decide
    rcases List.mem_cons.1 hc with rfl | hc
    · exact hd _ _ h1
    rcases List.mem_cons.1 hc with rfl | hc
    · exact hd _ _ h2
    · exact ih c hc

private theorem encoded_reads {u n : Str} (h : EncodedName u n) : Lemmas.Reads u n := by
  induction h with
  | nil => exact .nil
  | plain hc _ ih => exact .plain (fun e => hc (by rw [e]; simp)) ih
  | coded c hw _ ih => exact .coded c hw ih

private theorem encoded_chars {u n : Str} (h : EncodedName u n) : ∀ c ∈ u, c ∉ ['#', '?', '/', '\\', '\t', '\r', '\n'] := by
  induction h with
  | nil => intro c hc; cases hc
  | plain hc _ ih =>
    intro x hx
    rcases List.mem_cons.1 hx with rfl | hx
    · intro hb
      exact hc (List.mem_cons_of_mem _ hb)
    · exact ih x hx
  | coded c hw _ ih =>
    intro x hx
    rcases List.mem_append.1 hx with hx | hx
    · exact pctBytes_chars hw x hx
    · exact ih x hx

private theorem encoded_urlName {u n : Str} (h : EncodedName u n) (hn : FileName n) : UrlName u := by
  have hp : '%' ∉ u → u = n := (encoded_reads h).eq_of_plain
  have hc := encoded_chars h
  refine ⟨⟨?_, ?_, ?_, ?_⟩, ?_⟩
  · intro e
    exact hn.1 ((hp (by rw [e]; decide)) ▸ e)
  · intro hm
    exact hc '/' hm (by decide)
  · intro e
    exact hn.2.2.1 ((hp (by rw [e]; decide)) ▸ e)
  · intro e
    exact hn.2.2.2 ((hp (by rw [e]; decide)) ▸ e)
  · intro c hm hb
    refine hc c hm ?_
    simp only [List.mem_cons, List.not_mem_nil, or_false] at hb ⊢
    rcases hb with e | e | e | e | e | e <;> simp [e]

private theorem encodedNames_good {us ns : List Str} (h : EncodedNames us ns) (hn : ∀ n ∈ ns, FileName n) :
    (∀ u ∈ us, UrlName u) ∧ ReadsL us ns := by
  induction h with
  | nil => exact ⟨fun u hu => (nomatch hu), [], rfl, rfl, fun x hx => (nomatch hx)⟩
  | @cons u n us ns h1 _ ih =>
    obtain ⟨i1, l, e1, e2, i2⟩ := ih (fun n h => hn n (List.mem_cons_of_mem _ h))
    refine ⟨?_, (u, n) :: l, by rw [e1]; rfl, by rw [e2]; rfl, ?_⟩
    · intro x hx
      rcases List.mem_cons.1 hx with rfl | hx
      · exact encoded_urlName h1 (hn n (List.mem_cons_self ..))
      · exact i1 x hx
    · intro x hx
      rcases List.mem_cons.1 hx with rfl | hx
      · exact encoded_reads h1
      · exact i2 x hx

/-- **C80** So does every other way of writing it: more or fewer of the characters may be percent-encoded, with hexadecimal digits
of either case. What is missing: paths of more than 200 characters. -/
theorem C80_any_encoding_partial (ok : Str → Bool) (U : Utf8Lib) (cwd us ns : List Str) (slash : Bool)
    (hok : ok [] = true) (hc : ∀ n ∈ cwd, FileName n) (hn : ∀ n ∈ ns, FileName n) (he : EncodedNames us ns)
    (hl : (pathTextOf ns slash).length ≤ 200) :
    openWorkbook ok U (absText cwd) ("file://".toList ++ pathTextOf us slash) = some (.file (pathTextOf ns slash)) := by
  obtain ⟨h1, h2⟩ := encodedNames_good he hn
  have e : "file://".toList ++ pathTextOf us slash = canon us slash := by
    unfold canon urlText
    simp [fileScheme]
  unfold openWorkbook
  rw [e, path2url_canon hok hc h1]
  have := openBook_canon (ok := ok) (U := U) (slash := slash) hok h1 h2
  rw [if_neg (by omega)] at this
  exact this

/-- `é.xls` written with digits of either case, and with a letter encoded for no need. -/
example : EncodedNames ["%c3%A9.%78ls".toList] ["é.xls".toList] := by
  refine .cons ?_ .nil
  refine .coded 'é' (w := "%c3%A9".toList) ?_ (.plain (by decide) (.coded 'x' (w := "%78".toList) ?_ (.plain (by decide) (.plain (by decide) .nil))))
  · have : String.utf8EncodeChar 'é' = [0xc3, 0xa9] := by decide
    rw [this]
    exact .cons (.inr (by decide)) (.inr (by decide)) (.cons (.inl (by decide)) (.inl (by decide)) .nil)
  · have : String.utf8EncodeChar 'x' = [0x78] := by decide
    rw [this]
    exact .cons (.inl (by decide)) (.inl (by decide)) .nil

/-- **C80** fails for every longer path: four characters are put after it. -/
theorem C80_long_url_refuted (ok : Str → Bool) (U : Utf8Lib) (cwd ns : List Str) (slash : Bool)
    (hok : ok [] = true) (hc : ∀ n ∈ cwd, FileName n) (hn : ∀ n ∈ ns, FileName n)
    (hl : 200 < (pathTextOf ns slash).length) :
    openWorkbook ok U (absText cwd) (fileUrl ns slash) =
      some (.file (pathTextOf ns slash ++ "\\\\?\\".toList)) := by
  unfold openWorkbook
  rw [fileUrl_eq, path2url_canon hok hc (quoted_good hn)]
  have := openBook_canon (ok := ok) (U := U) (slash := slash) hok (quoted_good hn) (readsL_quote ns)
  rw [if_pos hl] at this
  exact this

example : (∀ n ∈ ["a b".toList, "50% é?.xls".toList], FileName n) ∧
    fileUrl ["a b".toList, "50% é?.xls".toList] false = "file:///a%20b/50%25%20%C3%A9%3F.xls".toList ∧
    (pathTextOf ["a b".toList, "50% é?.xls".toList] false).length ≤ 200 := by
  unfold FileName
  decide +kernel

/-! ### C81 -/

/-- **C81** The URL of the URL of a plain path, or of a percent-encoded `file:` URL, is that URL, even in another
working folder. What is missing: other texts, see below. -/
theorem C81_url_stable_partial (ok : Str → Bool) (cwd cwd' : List Str) (p : Str) (hok : ok [] = true)
    (hc : ∀ n ∈ cwd, FileName n) (hc' : ∀ n ∈ cwd', FileName n)
    (hp : PlainPath p ∨ ∃ ns slash, (∀ n ∈ ns, FileName n) ∧ p = fileUrl ns slash) :
    ∃ url, path2url ok (absText cwd) p = some url ∧ path2url ok (absText cwd') url = some url := by
  rcases hp with hp | ⟨ns, slash, hn, rfl⟩
  · obtain ⟨a, s, he⟩ := splitOn_snoc p
    exact ⟨_, path2url_plain hok hc hp he, path2url_canon hok hc' (urlNames_good hc hp)⟩
  · rw [fileUrl_eq]
    exact ⟨_, path2url_canon hok hc (quoted_good hn), path2url_canon hok hc' (quoted_good hn)⟩

/-- **C81** fails for a URL of a host without path: each time its URL is computed it changes. -/
theorem C81_url_stable_refuted :
    path2url (fun _ => true) "/w".toList "http://host".toList = some "http://host/.".toList ∧
    path2url (fun _ => true) "/w".toList "http://host/.".toList = some "http://host/".toList := by
  decide +kernel

/-! ### C82 -/

theorem remote_shape {r : RemoteParts} (h : r.Ok) : Shape r.scheme r.host (pathTextOf r.names r.slash) r.query ∧
    (∃ a b t, r.scheme = a :: b :: t) ∧ r.scheme ≠ fileScheme ∧
    r.text = urlText r.scheme r.host (pathTextOf r.names r.slash) r.query := by
  have hn : ∀ n ∈ r.names, UrlName n := by
    intro n hn
    obtain ⟨h1, h2⟩ := h.names n hn
    refine ⟨h1, ?_⟩
    intro c hc hbad
    apply h2 c hc
    simp only [List.mem_cons, List.not_mem_nil, or_false] at hbad ⊢
    rcases hbad with e | e | e | e | e | e <;> simp [e]
  obtain ⟨⟨⟨c, t, hct, hc⟩, hall⟩, hlen, hfile⟩ := h.scheme
  refine ⟨?_, ?_, hfile, ?_⟩
  · apply shape_names hn _ _ _ _ h.host h.query
    · exact ⟨c, t, hct, by simp [isAsciiLetter, hc.1, hc.2]⟩
    · rw [List.all_eq_true]
      intro d hd
      rcases hall d hd with hd | hd | hd
      · simp [schemeChar, isAsciiLetter, hd.1, hd.2]
      · simp [schemeChar, isAsciiDigit, hd.1, hd.2]
      · simp only [schemeChar, hd, decide_true, Bool.or_true]
    · unfold lower
      conv => rhs; rw [← List.map_id r.scheme]
      apply List.map_congr_left
      intro d hd
      unfold lowerChar
      rw [if_neg]; · rfl
      rintro ⟨h1, h2⟩
      rcases hall d hd with hd | hd | hd
      · have := hd.1
        rw [Char.le_def, UInt32.le_iff_toNat_le] at this
        have h3 : 97 ≤ d.toNat := this
        omega
      · have := hd.2
        rw [Char.le_def, UInt32.le_iff_toNat_le] at this
        have h3 : d.toNat ≤ 57 := this
        omega
      · simp only [List.mem_cons, List.not_mem_nil, or_false] at hd
        rcases hd with rfl | rfl | rfl <;> revert h1 h2 <;> decide
    · by_cases he : r.host = []
      · right
        have hs := h.noHost he
        simp only [List.mem_cons, List.not_mem_nil, or_false] at hs
        rcases hs with e | e | e <;> (rw [e]; decide)
      · exact .inl he
  · match hr : r.scheme, hlen with
    | a :: b :: t, _ => exact ⟨_, _, _, rfl⟩
  · unfold RemoteParts.text urlText
    have : "://".toList = [':', '/', '/'] := rfl
    rw [this]
    simp

/-- **C82** A remote URL, whose path is normal already, passes through unchanged, and it is what is read. What is missing:
URLs whose path is empty or has empty or dotted segments, and URLs with parameters, see below. -/
theorem C82_remote_unchanged_partial (ok : Str → Bool) (U : Utf8Lib) (cwd : List Str) (r : RemoteParts)
    (hok : ok [] = true) (hokh : ok r.host = true) (hc : ∀ n ∈ cwd, FileName n) (h : r.Ok) :
    path2url ok (absText cwd) r.text = some r.text ∧
    openWorkbook ok U (absText cwd) r.text = some (.remote r.text) := by
  obtain ⟨h1, h2, h3, h4⟩ := remote_shape h
  have hn : ∀ n ∈ r.names, UrlName n := by
    intro n hn
    obtain ⟨h1, h2⟩ := h.names n hn
    refine ⟨h1, ?_⟩
    intro c hc hbad
    apply h2 c hc
    simp only [List.mem_cons, List.not_mem_nil, or_false] at hbad ⊢
    rcases hbad with e | e | e | e | e | e <;> simp [e]
  have hp := path2url_remote (ok := ok) hok hokh hc hn h1 h2 h3
  have hsc : ';' ∉ pathTextOf r.names r.slash := by
    intro hc
    rcases mem_pathTextOf hc with e | ⟨n, hm, hcn⟩
    · revert e; decide
    · exact (h.names n hm).2 _ hcn (by decide)
  rw [← h4] at hp
  refine ⟨hp, ?_⟩
  unfold openWorkbook
  simp only [hp]
  unfold openBook
  rw [h4, urlparse_remote h1 hokh hsc]
  simp [h3]

/-- **C82** fails: a URL without path gets `/.`, slashes in a row are merged, those before a missing host are lost if Python does not know the
scheme, and a workbook whose URL has parameters cannot be opened at all. -/
theorem C82_remote_refuted (U : Utf8Lib) :
    path2url (fun _ => true) "/w".toList "http://host".toList = some "http://host/.".toList ∧
    path2url (fun _ => true) "/w".toList "http://host/a//b.xls".toList = some "http://host/a/b.xls".toList ∧
    path2url (fun _ => true) "/w".toList "s3:///b.xls".toList = some "s3:/b.xls".toList ∧
    openWorkbook (fun _ => true) U "/w".toList "http://host/b.xls;v=1".toList = none :=
  ⟨by decide +kernel, by decide +kernel, by decide +kernel, rfl⟩

example : RemoteParts.Ok ⟨"http".toList, "host:80".toList, ["a b".toList, "x.xls".toList], false, "q=1".toList⟩ ∧
    RemoteParts.text ⟨"http".toList, "host:80".toList, ["a b".toList, "x.xls".toList], false, "q=1".toList⟩ =
      "http://host:80/a b/x.xls?q=1".toList := by
  refine ⟨⟨⟨⟨⟨'h', _, rfl, by decide⟩, by decide⟩, by decide, by decide⟩, by decide, by decide, ?_, by decide⟩, by decide +kernel⟩
  unfold RemoteName FileName
  decide

/-- A URL with a scheme that Python does not know. -/
example : RemoteParts.Ok ⟨"s3+x".toList, "bucket".toList, ["x.xls".toList], false, []⟩ := by
  refine ⟨⟨⟨⟨'s', _, rfl, by decide⟩, by decide⟩, by decide, by decide⟩, by decide, by decide, ?_, by decide⟩
  unfold RemoteName FileName
  decide

end Props
