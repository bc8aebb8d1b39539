import Verif.Lemmas.MapPath
import Verif.Props.Paths
import Verif.Props.Pmod
import Verif.Tests.ToyRegex
/-
C16-C18: mapping of paths.
-/
set_option linter.unusedSimpArgs false
namespace Props
open Py Model Spec

private theorem flatMap_contribution (ps : List Str) : ∀ (as : List (Option Str)), (∀ p ∈ ps, Plain p) →
    (∀ a, some a ∈ as → PlainAlias a) →
    (ps.zip as).flatMap (fun sa => stepParts sa.1 sa.2) =
      (ps.zip as).flatMap (fun sa => contribution sa.1 sa.2) := by
  induction ps with
  | nil => intro as _ _; rfl
  | cons p t ih =>
    intro as hp ha
    cases as with
    | nil => rfl
    | cons a as =>
      simp only [List.zip_cons_cons, List.flatMap_cons]
      rw [stepParts_contribution (hp p (by simp)) a (fun x hx => ha x (by simp [hx])),
        ih as (fun q hq => hp q (by simp [hq])) (fun x hx => ha x (by simp [hx]))]

/-- C16, C17 in general form. Mapping a path of plain steps, when the aliases met are plain, walks
the contributions of its steps: each step itself, or its alias. -/
theorem C16_map_path_walks (E : RegexLib) (pm : Pmod) (ps : List Str) (as : List (Option Str))
    (hroot : pm.alias = none) (hne : ps ≠ []) (hps : ∀ p ∈ ps, Plain p)
    (hlast : ps.getLast? ≠ some "".toList ∨ ps.length ≤ 2 ∧ ps.head? = some "".toList)
    (has : AliasesAlong E (some pm) ps as) (hpl : ∀ a, some a ∈ as → PlainAlias a) :
    pm.mapPath E (pathText ps) =
      .ok (((ps.zip as).flatMap (fun sa => contribution sa.1 sa.2)).foldl Loc.move (.rel 0 [])).text := by
  have hne2 : '~' ∉ pathText ps := tilde_not_mem_pathText hps
  unfold Pmod.mapPath
  simp only [hroot, dropFolderSlash_pathText hps hlast, iterPartsRelaxed_plain hne2, splitOn_pathText hne hps]
  rw [mapLoop_eq has none [] (fun _ => rfl)]
  simp only [List.nil_append]
  rw [joinPaths_eq_text]
  rw [flatMap_contribution ps as hps hpl]

/-- C16, C17. When the hierarchy has an alias of its own, the walk begins with the steps of that alias. -/
theorem C16_map_path_walks_from_root_alias (E : RegexLib) (pm : Pmod) (rs ps : List Str) (as : List (Option Str))
    (hroot : pm.alias = some (pathText rs)) (hrs : ∀ p ∈ rs, Plain p) (hrne : rs ≠ [])
    (hne : ps ≠ []) (hps : ∀ p ∈ ps, Plain p)
    (hlast : ps.getLast? ≠ some "".toList ∨ ps.length ≤ 2 ∧ ps.head? = some "".toList)
    (has : AliasesAlong E (some pm) ps as) (hpl : ∀ a, some a ∈ as → PlainAlias a) :
    pm.mapPath E (pathText ps) =
      .ok ((rs ++ (ps.zip as).flatMap (fun sa => contribution sa.1 sa.2)).foldl Loc.move (.rel 0 [])).text := by
  have hne2 : '~' ∉ pathText ps := tilde_not_mem_pathText hps
  have hne3 : '~' ∉ pathText rs := tilde_not_mem_pathText hrs
  unfold Pmod.mapPath
  simp only [hroot, dropFolderSlash_pathText hps hlast, iterPartsRelaxed_plain hne2, iterPartsRelaxed_plain hne3,
    splitOn_pathText hne hps, splitOn_pathText hrne hrs]
  rw [mapLoop_eq has none _ (fun _ => rfl)]
  simp only
  rw [joinPaths_eq_text]
  rw [flatMap_contribution ps as hps hpl]

/-- An alias of the whole, and one inside. -/
example : Pmod.mapPath Tests.toy (.mk (some "r/s".toList) [("a".toList, .mk (some "b".toList) [] [])] [])
    "a/c".toList = .ok "r/s/b/c".toList := rfl

private theorem foldl_normal {ps : List Str} (hn : NormalSteps ps) (hne : ps ≠ []) :
    (ps.foldl Loc.move (.rel 0 [])).text = pathText ps := by
  have h : ∃ l : Loc, LocOK l ∧ l.steps = ps := by
    rcases hn with ⟨names, h, ho⟩ | ⟨u, names, h, ho⟩
    · exact ⟨.abs names, ho, h.symm⟩
    · exact ⟨.rel u names, ho, h.symm⟩
  obtain ⟨l, hl, hs⟩ := h
  have := foldl_move_steps l hl
  rw [hs] at this
  rw [this]
  unfold Loc.text
  rw [hs]
  cases ps with
  | nil => exact absurd rfl hne
  | cons a t => rfl

private theorem normal_last {ps : List Str} (hn : NormalSteps ps) :
    ps.getLast? ≠ some "".toList ∨ ps.length ≤ 2 ∧ ps.head? = some "".toList := by
  rcases hn with ⟨names, h, ho⟩ | ⟨u, names, h, ho⟩
  · subst h
    rcases List.eq_nil_or_concat names with e | ⟨ms, m, e⟩
    · subst e; right; simp
    · left
      simp only [List.concat_eq_append] at e
      subst e
      rw [← List.cons_append, List.getLast?_concat]
      intro e; injection e with e; exact (ho m (by simp)).1 e
  · left
    intro hl
    have hm := List.mem_of_getLast? hl
    rw [h] at hm
    rcases List.mem_append.1 hm with hm | hm
    · rw [List.mem_replicate] at hm; exact absurd hm.2 (by decide)
    · exact (ho _ hm).1 rfl

private theorem zip_none (ps : List Str) :
    (ps.zip (List.replicate ps.length none)).flatMap (fun sa => contribution sa.1 sa.2) = ps := by
  induction ps with
  | nil => rfl
  | cons p t ih => simp only [List.length_cons, List.replicate_succ, List.zip_cons_cons,
      List.flatMap_cons, ih]; rfl

/-- C16. A normal path of plain steps, none of which has an alias in force, is mapped to itself.
(Missing: steps with escapes, and the path `/`; both are refuted below.) -/
theorem C16_unmapped_identity_partial (E : RegexLib) (pm : Pmod) (ps : List Str)
    (hroot : pm.alias = none) (hne : ps ≠ []) (hps : ∀ p ∈ ps, Plain p) (hn : NormalSteps ps)
    (has : AliasesAlong E (some pm) ps (List.replicate ps.length none)) :
    pm.mapPath E (pathText ps) = .ok (pathText ps) := by
  rw [C16_map_path_walks E pm ps _ hroot hne hps (normal_last hn) has
    (by intro a ha; rw [List.mem_replicate] at ha; exact absurd ha.2 (by simp)), zip_none,
    foldl_normal hn hne]

/-- C16. In particular mappings without any alias map every normal path of plain steps to itself. -/
theorem C16_no_alias_identity_partial (E : RegexLib) (pm : Pmod) (hd : DistinctKeys pm) (ps : List Str)
    (hno : ∀ ks, aliasAt pm ks = none)
    (hne : ps ≠ []) (hps : ∀ p ∈ ps, Plain p) (hn : NormalSteps ps) :
    pm.mapPath E (pathText ps) = .ok (pathText ps) := by
  refine C16_unmapped_identity_partial E pm ps (hno []) hne hps hn ?_
  clear hne hps hn
  suffices ∀ (o : Option Pmod), (∀ p, o = some p → DistinctKeys p ∧ ∀ ks, aliasAt p ks = none) →
      AliasesAlong E o ps (List.replicate ps.length none) from
    this (some pm) (fun p hp => by injection hp with hp; subst hp; exact ⟨hd, hno⟩)
  induction ps with
  | nil => intro o _; exact .nil o
  | cons s ss ih =>
    intro o ho
    simp only [List.length_cons, List.replicate_succ]
    cases o with
    | none => exact .off s ss _ (ih none (by simp))
    | some p =>
      obtain ⟨hpd, hpn⟩ := ho p rfl
      have hal : p.aliasOf E s = .ok none := by
        unfold Pmod.aliasOf
        have h1 : (dget p.steps s).bind Pmod.alias = none := by
          have := hpn [.name s]
          simpa [aliasAt, nodeAt] using this
        rw [h1]
        have : ∀ (l : List (Pmod × E.Match)), (∀ x ∈ l, x.1.alias = none) → Pmod.lastAlias E l = .ok none := by
          intro l
          induction l with
          | nil => intro _; rfl
          | cons x t iht =>
            intro h
            obtain ⟨r, m⟩ := x
            have hx := h (r, m) (by simp)
            simp only at hx
            simp [Pmod.lastAlias, hx, iht (fun y hy => h y (by simp [hy]))]
        apply this
        intro x hx
        rw [List.mem_reverse] at hx
        unfold Pmod.matchRegxs at hx
        obtain ⟨kv, hkv, he⟩ := List.mem_filterMap.1 hx
        cases hm : E.fullmatch kv.1 s with
        | none => rw [hm] at he; simp at he
        | some m =>
          rw [hm] at he
          simp at he
          subst he
          have hg := dget_of_mem hpd.regxs_nodup (k := kv.1) (v := kv.2) (by simpa using hkv)
          have := hpn [.regx kv.1]
          simpa [aliasAt, nodeAt, hg] using this
      cases hdsc : p.descend E s with
      | error e =>
        have := C13_alias_agrees E p s
        rw [hdsc, hal] at this
        simp [Except.map] at this
      | ok r =>
        obtain ⟨o', a⟩ := r
        have ha : a = none := by
          have := C13_alias_agrees E p s
          rw [hdsc, hal] at this
          simpa [Except.map] using this
        subst ha
        refine .on p o' s none ss _ hdsc (ih o' ?_)
        intro c hc
        subst hc
        refine ⟨C13_child_distinct E p c s none hpd hdsc, ?_⟩
        intro ks
        rw [(C13_child_combines E p c s none hpd hdsc ks).1]
        unfold lastSome
        rw [List.findSome?_eq_none_iff]
        intro q hq
        rw [List.mem_reverse] at hq
        unfold applicable at hq
        rcases List.mem_append.1 hq with h | h
        · obtain ⟨kv, hkv, rfl⟩ := List.mem_map.1 h
          have hg := dget_of_mem hpd.regxs_nodup (k := kv.1) (v := kv.2) (List.mem_filter.1 hkv).1
          have := hpn (.regx kv.1 :: ks)
          simpa [aliasAt, nodeAt, hg] using this
        · simp at h
          have := hpn (.name s :: ks)
          simpa [aliasAt, nodeAt, h] using this

example : ∀ p ∈ ["".toList, "a b".toList, ".hid".toList], Plain p := by unfold Plain; decide
example : NormalSteps ["".toList, "a b".toList, ".hid".toList] :=
  Or.inl ⟨_, rfl, by unfold Ordinary; decide⟩
example : pathText ["".toList, "a b".toList, ".hid".toList] = "/a b/.hid".toList := by decide

/-- C16 fails for steps with escapes: without any mapping, `/a~1b` (one step called `a/b`) is
mapped to `/a/b` (two steps). -/
theorem C16_escaped_refuted (E : RegexLib) :
    Pmod.empty.mapPath E "/a~1b".toList = .ok "/a/b".toList := rfl

/-- C16 fails for `/`: it is mapped to the empty path, although the documentation says `/`. -/
theorem C16_slash_refuted (E : RegexLib) :
    Pmod.empty.mapPath E "/".toList = .ok "".toList := rfl

/-! ### C17 -/

/-- Mappings of a single tuple. -/
private def chain (t : Str) : List Str → Pmod
  | [] => .mk (some t) [] []
  | f :: fs => .mk none [(f, chain t fs)] []

private theorem not_tilde {s : Str} (h : Plain s) : startsWith ['~'] s = false := by
  cases s with
  | nil => rfl
  | cons c t =>
    have : '~' ≠ c := fun e => h.2 (List.mem_cons.2 (Or.inl e))
    simp [startsWith, List.isPrefixOf, this]

private theorem insert_chain (t : Str) (fs : List Str) (h : ∀ f ∈ fs, Plain f) :
    Pmod.insert t fs Pmod.empty = chain t fs := by
  induction fs with
  | nil => rfl
  | cons f fs ih =>
    rw [Pmod.empty, Pmod.insert]
    simp only [not_tilde (h f (by simp)), Bool.false_eq_true, if_false, dget_nil, Option.getD_none]
    rw [ih (fun x hx => h x (by simp [hx]))]
    rfl

private theorem single_tuple (E : RegexLib) (fs : List Str) (t : Str) (hne : fs ≠ []) (hfs : ∀ f ∈ fs, Plain f)
    (ht : t ≠ []) : pmodsFromTuples E [(some (pathText fs), some t)] = .ok (chain t fs) := by
  have hi : iterPartsRelaxed (pathText fs) = fs := by
    rw [iterPartsRelaxed_plain (tilde_not_mem_pathText hfs), splitOn_pathText hne hfs]
  have hall : fs.all (fun s => !startsWith ['~'] s || E.compiles s.tail) = true := by
    rw [List.all_eq_true]; intro s hs; simp [not_tilde (hfs s hs)]
  unfold pmodsFromTuples
  simp only [pmodsLoop]
  rw [if_neg (by simp [ht]), hi, if_pos hall, insert_chain t fs hfs]

private theorem descend_chain_hit (E : RegexLib) (t f : Str) (fs : List Str) :
    (chain t (f :: fs)).descend E f = .ok (some (chain t fs), if fs = [] then some t else none) := by
  cases fs with
  | nil => simp [chain, Pmod.descend, Pmod.steps, Pmod.matchRegxs, Pmod.regxs, dget_cons, Pmod.alias,
      Pmod.reduceMerge]
  | cons g gs => simp [chain, Pmod.descend, Pmod.steps, Pmod.matchRegxs, Pmod.regxs, dget_cons, Pmod.alias,
      Pmod.reduceMerge, Pmod.lastAlias]

private theorem descend_chain_miss (E : RegexLib) (t f s : Str) (fs : List Str) (h : s ≠ f) :
    (chain t (f :: fs)).descend E s = .ok (none, none) := by
  simp [chain, Pmod.descend, Pmod.steps, Pmod.matchRegxs, Pmod.regxs, dget_cons, Ne.symm h,
      Pmod.reduceMerge, Pmod.lastAlias]

private theorem along_none (E : RegexLib) (ps : List Str) :
    AliasesAlong E none ps (List.replicate ps.length none) := by
  induction ps with
  | nil => exact .nil _
  | cons p t ih => exact .off p t _ ih

private theorem along_end (E : RegexLib) (t : Str) (ps : List Str) :
    AliasesAlong E (some (chain t [])) ps (List.replicate ps.length none) := by
  cases ps with
  | nil => exact .nil _
  | cons p ps =>
    refine .on _ none p none ps _ ?_ (along_none E ps)
    simp [chain, Pmod.descend, Pmod.steps, Pmod.matchRegxs, Pmod.regxs, Pmod.reduceMerge, Pmod.lastAlias]

private theorem along_hit (E : RegexLib) (t : Str) (fs : List Str) (x : Str) (rest : List Str) :
    AliasesAlong E (some (chain t (fs ++ [x]))) (fs ++ x :: rest)
      (List.replicate fs.length none ++ some t :: List.replicate rest.length none) := by
  induction fs with
  | nil =>
    refine .on _ (some (chain t [])) x (some t) rest _ ?_ (along_end E t rest)
    exact descend_chain_hit E t x []
  | cons f fs ih =>
    refine .on _ (some (chain t (fs ++ [x]))) f none _ _ ?_ ih
    have := descend_chain_hit E t f (fs ++ [x])
    simpa using this

private theorem along_miss (E : RegexLib) (t : Str) (fs : List Str) : ∀ (ps : List Str), fs ≠ [] →
    ¬ fs <+: ps → AliasesAlong E (some (chain t fs)) ps (List.replicate ps.length none) := by
  induction fs with
  | nil => intro ps h; exact absurd rfl h
  | cons f fs ih =>
    intro ps _ hp
    cases ps with
    | nil => exact .nil _
    | cons p ps =>
      by_cases e : p = f
      · subst e
        have hfs : fs ≠ [] := by
          intro e; subst e; exact hp (by simp)
        have hp' : ¬ fs <+: ps := fun h => hp (by simpa using h)
        refine .on _ (some (chain t fs)) p none ps _ ?_ (ih ps hfs hp')
        have := descend_chain_hit E t p fs
        simpa [hfs] using this
      · exact .on _ none p none ps _ (descend_chain_miss E t f p fs e) (along_none E ps)

private theorem zip_hit (fs : List Str) (x t : Str) (rest : List Str) :
    ((fs ++ x :: rest).zip (List.replicate fs.length none ++ some t :: List.replicate rest.length none)).flatMap
      (fun sa => contribution sa.1 sa.2) = fs ++ contribution x (some t) ++ rest := by
  induction fs with
  | nil =>
    simp only [List.length_nil, List.replicate_zero, List.nil_append, List.zip_cons_cons, List.flatMap_cons]
    rw [zip_none]
  | cons f fs ih =>
    simp only [List.length_cons, List.replicate_succ, List.cons_append, List.zip_cons_cons, List.flatMap_cons, ih]
    rfl

/-- C17 in general form. With the single mapping of the path `fs/x` to `t`, a path through `fs/x`
is the walk along `fs`, then `t` (from `x` on, if `t` starts with a dot), then the rest. -/
theorem C17_map_through (E : RegexLib) (pm : Pmod) (fs : List Str) (x t : Str) (rest : List Str)
    (hp : ∀ p ∈ fs ++ x :: rest, Plain p) (ht : t ≠ "".toList) (hpa : PlainAlias t)
    (hlast : (fs ++ x :: rest).getLast? ≠ some "".toList)
    (hpm : pmodsFromTuples E [(some (pathText (fs ++ [x])), some t)] = .ok pm) :
    pm.mapPath E (pathText (fs ++ x :: rest)) =
      .ok (((fs ++ contribution x (some t) ++ rest)).foldl Loc.move (.rel 0 [])).text := by
  rw [single_tuple E (fs ++ [x]) t (by simp)
    (fun f hf => hp f (by
      rcases List.mem_append.1 hf with h | h
      · simp [h]
      · simp at h; simp [h])) ht] at hpm
  injection hpm with hpm
  subst hpm
  rw [C16_map_path_walks E _ _ _ (by cases fs <;> rfl) (by simp) hp (Or.inl hlast) (along_hit E t fs x rest) _,
    zip_hit]
  intro a ha
  rcases List.mem_append.1 ha with h | h
  · rw [List.mem_replicate] at h; exact absurd h.2 (by simp)
  · rcases List.mem_cons.1 h with h | h
    · injection h with h; subst h; exact hpa
    · rw [List.mem_replicate] at h; exact absurd h.2 (by simp)

private theorem plainAlias_names {ts : List Str} (hne : ts ≠ []) (h : ∀ n ∈ ts, Plain n ∧ Ordinary n) :
    PlainAlias (pathText ts) ∧ pathText ts ≠ "".toList := by
  rcases List.eq_nil_or_concat ts with e | ⟨qs, q, e⟩
  · exact absurd e hne
  · simp only [List.concat_eq_append] at e
    subst e
    have hq := h q (by simp)
    have hqne : q ≠ [] := hq.2.1
    have hl : (pathText (qs ++ [q])).getLast? = q.getLast? := by
      unfold pathText
      rw [lit_slash]
      by_cases hqs : qs = []
      · subst hqs; simp [join]
      · rw [join_snoc _ _ hqs, List.getLast?_append]
        cases q with
        | nil => exact absurd rfl hqne
        | cons c t => simp [List.getLast?_cons]
    refine ⟨⟨tilde_not_mem_pathText (fun p hp => (h p hp).1), Or.inr ?_⟩, ?_⟩
    · rw [hl]; intro e; exact hq.1.1 (List.mem_of_getLast? e)
    · intro e
      rw [e] at hl
      cases q with
      | nil => exact hqne rfl
      | cons c t => simp [List.getLast?_cons] at hl

/-- C17. Renaming/relocating: with the single mapping of `/fs/x` to the relative path `ts`, a path
through `/fs/x` gets exactly the step `x` replaced by the steps `ts`. -/
theorem C17_rename (E : RegexLib) (pm : Pmod) (fs ts rest : List Str) (x : Str)
    (hf : ∀ n ∈ fs ++ x :: rest, Plain n ∧ Ordinary n) (ht : ∀ n ∈ ts, Plain n ∧ Ordinary n)
    (htn : ts ≠ []) (hdot : (pathText ts).head? ≠ some '.')
    (hpm : pmodsFromTuples E [(some (pathText ("".toList :: fs ++ [x])), some (pathText ts))] = .ok pm) :
    pm.mapPath E (pathText ("".toList :: fs ++ x :: rest)) = .ok (pathText ("".toList :: fs ++ ts ++ rest)) := by
  have hpl : ∀ p ∈ "".toList :: fs ++ x :: rest, Plain p := by
    intro p hp
    rcases List.mem_cons.1 hp with e | e
    · subst e; simp [Plain]
    · exact (hf p e).1
  have hlast : ("".toList :: fs ++ x :: rest).getLast? ≠ some "".toList := by
    intro e
    have : ("".toList :: fs ++ x :: rest).getLast? = (x :: rest).getLast? := by
      rw [List.getLast?_append]; simp [List.getLast?_cons]
    rw [this] at e
    exact (hf _ (List.mem_append_right _ (List.mem_of_getLast? e))).2.1 rfl
  rw [C17_map_through E pm ("".toList :: fs) x (pathText ts) rest hpl (plainAlias_names htn ht).2
    (plainAlias_names htn ht).1 hlast hpm]
  have hc : contribution x (some (pathText ts)) = ts := by
    unfold contribution
    simp only [if_neg hdot]
    exact splitOn_pathText htn (fun p hp => (ht p hp).1)
  rw [hc, foldl_normal (Or.inl ⟨fs ++ ts ++ rest, by simp, _⟩) (by simp)]
  intro n hn
  rcases List.mem_append.1 hn with h | h
  · rcases List.mem_append.1 h with h | h
    · exact (hf n (by simp [h])).2
    · exact (ht n h).2
  · exact (hf n (by simp [h])).2

/-- C17. A rooted target relocates: the part of the path up to the mapped step is forgotten. -/
theorem C17_relocate_root (E : RegexLib) (pm : Pmod) (fs ts rest : List Str) (x : Str)
    (hf : ∀ n ∈ fs ++ x :: rest, Plain n ∧ Ordinary n) (ht : ∀ n ∈ ts, Plain n ∧ Ordinary n)
    (htn : ts ≠ [])
    (hpm : pmodsFromTuples E [(some (pathText ("".toList :: fs ++ [x])),
      some (pathText ("".toList :: ts)))] = .ok pm) :
    pm.mapPath E (pathText ("".toList :: fs ++ x :: rest)) = .ok (pathText ("".toList :: ts ++ rest)) := by
  have hpl : ∀ p ∈ "".toList :: fs ++ x :: rest, Plain p := by
    intro p hp
    rcases List.mem_cons.1 hp with e | e
    · subst e; simp [Plain]
    · exact (hf p e).1
  have hlast : ("".toList :: fs ++ x :: rest).getLast? ≠ some "".toList := by
    intro e
    have : ("".toList :: fs ++ x :: rest).getLast? = (x :: rest).getLast? := by
      rw [List.getLast?_append]; simp [List.getLast?_cons]
    rw [this] at e
    exact (hf _ (List.mem_append_right _ (List.mem_of_getLast? e))).2.1 rfl
  have hts := plainAlias_names htn ht
  have e1 : pathText ("".toList :: ts) = '/' :: pathText ts := by
    cases ts with
    | nil => exact absurd rfl htn
    | cons a t => simp [pathText, join]
  have hpa : PlainAlias (pathText ("".toList :: ts)) := by
    rw [e1]
    refine ⟨by simpa using hts.1.1, Or.inr ?_⟩
    rcases hts.1.2 with h | h
    · exfalso
      have hs := splitOn_pathText htn (fun p hp => (ht p hp).1)
      rw [h] at hs
      have : [] ∈ ts := by rw [← hs]; decide
      exact (ht [] this).2.1 rfl
    · cases hp : pathText ts with
      | nil => exact absurd hp hts.2
      | cons c t => rw [hp] at h; simpa [List.getLast?_cons] using h
  rw [C17_map_through E pm ("".toList :: fs) x _ rest hpl (by rw [e1]; simp) hpa hlast hpm]
  have hc : contribution x (some (pathText ("".toList :: ts))) = "".toList :: ts := by
    unfold contribution
    have hh : (pathText ("".toList :: ts)).head? ≠ some '.' := by rw [e1]; simp
    simp only [if_neg hh]
    refine splitOn_pathText (by simp) ?_
    intro p hp
    rcases List.mem_cons.1 hp with e | e
    · subst e; simp [Plain]
    · exact (ht p e).1
  rw [hc]
  have hreset : ("".toList :: fs ++ ("".toList :: ts) ++ rest).foldl Loc.move (.rel 0 []) =
      ("".toList :: (ts ++ rest)).foldl Loc.move (.rel 0 []) := by
    simp [List.foldl_append, Loc.move]
  rw [hreset, foldl_normal (Or.inl ⟨ts ++ rest, rfl, _⟩) (by simp)]
  · simp
  · intro n hn
    rcases List.mem_append.1 hn with h | h
    · exact (ht n h).2
    · exact (hf n (by simp [h])).2

/-- C17. Paths that do not go through the mapped path are unchanged. -/
theorem C17_others_unchanged (E : RegexLib) (pm : Pmod) (fs ps : List Str) (t : Str)
    (hfs : ∀ p ∈ fs, Plain p) (hfn : fs ≠ []) (ht : t ≠ "".toList)
    (hne : ps ≠ []) (hps : ∀ p ∈ ps, Plain p) (hn : NormalSteps ps) (hnot : ¬ fs <+: ps)
    (hpm : pmodsFromTuples E [(some (pathText fs), some t)] = .ok pm) :
    pm.mapPath E (pathText ps) = .ok (pathText ps) := by
  rw [single_tuple E fs t hfn hfs ht] at hpm
  injection hpm with hpm
  subst hpm
  refine C16_unmapped_identity_partial E _ ps ?_ hne hps hn (along_miss E t fs ps hfn hnot)
  cases fs with
  | nil => exact absurd rfl hfn
  | cons f fs => rfl

example : ∃ pm, pmodsFromTuples Tests.toy [(some "/a/b".toList, some "X/Y".toList)] = .ok pm ∧
    pm.mapPath Tests.toy "/a/b/c".toList = .ok "/a/X/Y/c".toList ∧
    pm.mapPath Tests.toy "/a/c/b".toList = .ok "/a/c/b".toList := ⟨_, rfl, rfl, rfl⟩
example : ∀ n ∈ ["a".toList, "b".toList, "c".toList, "X".toList, "Y".toList], Plain n ∧ Ordinary n := by
  unfold Plain Ordinary; decide
example : ∃ pm, pmodsFromTuples Tests.toy [(some "/a/b".toList, some "/X".toList)] = .ok pm ∧
    pm.mapPath Tests.toy "/a/b/c".toList = .ok "/X/c".toList := ⟨_, rfl, rfl⟩

/-! ### C18 -/

/-- C18 fails: the trailing slash of a folder path is lost even when nothing is mapped. -/
theorem C18_folder_refuted (E : RegexLib) :
    Pmod.empty.mapPath E "/a/".toList = .ok "/a".toList := rfl

/-- C18, what holds instead: a trailing slash is ignored, a folder is mapped like the path without
the slash. (Missing: the slash should be kept in the result.) -/
theorem C18_folder_partial (E : RegexLib) (pm : Pmod) (path : Str) (h : path ≠ "".toList)
    (hns : path.getLast? ≠ some '/') :
    pm.mapPath E (path ++ "/".toList) = pm.mapPath E path := by
  have h1 : dropFolderSlash (path ++ "/".toList) = path := by
    unfold dropFolderSlash
    rw [endsWith_slash]
    cases path with
    | nil => exact absurd rfl h
    | cons c t =>
      have : (c :: t ++ "/".toList).dropLast = c :: t := by
        rw [show "/".toList = ['/'] from rfl, List.dropLast_concat]
      rw [this]
      simp
      rw [← List.cons_append, List.getLast?_concat]
  unfold Pmod.mapPath
  rw [h1, dropFolderSlash_eq (Or.inr hns)]

example : "/a".toList ≠ "".toList ∧ "/a".toList.getLast? ≠ some '/' := by decide

end Props
