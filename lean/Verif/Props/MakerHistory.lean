import Verif.Spec.MakerHistory
import Verif.Props.PandelHeap
/-
C125: a model-maker may be used again and again.
-/
namespace Props
open Py Model Spec

private theorem reads_bound {h : Heap} {v : Val} {d : Doc} (hr : Reads (whole h) v d) : ∀ l, v = .ref l → l < h.length := by
  rintro l rfl
  cases hr with
  | list _ _ _ e _ => exact (List.getElem?_eq_some_iff.1 e).1
  | dict _ _ _ e _ => exact (List.getElem?_eq_some_iff.1 e).1

private theorem readsList_bound {h : Heap} : ∀ {vs : List Val} {ds : List Doc}, ReadsList (whole h) vs ds →
    ∀ v ∈ vs, ∀ l, v = .ref l → l < h.length
  | _, _, .nil => by simp
  | _, _, .cons v d vs ds h1 h2 => by
    intro w hw
    cases hw with
    | head => exact reads_bound h1
    | tail _ hw => exact readsList_bound h2 w hw

private theorem readsList_append {g : View} {vs ws : List Val} {ds es : List Doc} : ReadsList g vs ds → ReadsList g ws es →
    ReadsList g (vs ++ ws) (ds ++ es)
  | .nil, h => h
  | .cons v d vs ds h1 h2, h => .cons _ _ _ _ h1 (readsList_append h2 h)

private theorem readsList_map {g g' : View} (hg : ∀ v d, Reads g v d → Reads g' v d) : ∀ {vs : List Val} {ds : List Doc},
    ReadsList g vs ds → ReadsList g' vs ds
  | _, _, .nil => .nil
  | _, _, .cons v d vs ds h1 h2 => .cons _ _ _ _ (hg _ _ h1) (readsList_map hg h2)

private theorem history {mk : MakerH} {fuel : Nat} (hc : ∀ n, Careful n mk) {s : MakerState} {ops : List MakerOp} {ds : List Doc}
    (ht : Told mk fuel s ops ds) : ∀ ds0, ReadsList (whole s.heap) s.subs ds0 →
    ReadsList (whole (makerRun mk fuel s ops).heap) (makerRun mk fuel s ops).subs (ds0 ++ ds) := by
  induction ht with
  | done s => intro ds0 h; rw [List.append_nil]; exact h
  | new s o ops ds _ ih =>
    intro ds0 h
    refine ih ds0 (h.mono ?_)
    intro l o' hl
    show (s.heap ++ [o])[l]? = some o'
    rw [List.getElem?_append_left (List.getElem?_eq_some_iff.1 hl).1]
    exact hl
  | add s v d ops ds hr _ ih =>
    intro ds0 h
    have := ih (ds0 ++ [d]) (readsList_append h (.cons _ _ _ _ hr .nil))
    rw [List.append_assoc] at this
    exact this
  | build s ops ds _ ih =>
    intro ds0 h
    refine ih ds0 (readsList_map ?_ h)
    intro v d hr
    exact C28_unchanged_partial mk s.heap s.subs fuel (hc _) (readsList_bound h) v d hr

/-- C125: whatever was built in between, with or without success, the submodels are what they were when they were added, when neither
validations nor curations write to objects of others. Missing: validations that fill in defaults. -/
theorem C125_submodels_partial (mk : MakerH) (fuel : Nat) (hc : ∀ n, Careful n mk) (h : Heap) (ops : List MakerOp) (ds : List Doc)
    (ht : Told mk fuel (makerNew h) ops ds) :
    ReadsList (whole (makerRun mk fuel (makerNew h) ops).heap) (makerRun mk fuel (makerNew h) ops).subs ds :=
  history hc ht [] .nil

private theorem careful_plain {pre post : DSchema} (h1 : NoDefaults pre) (h2 : NoDefaults post) (n : Nat) :
    Careful n (plainMaker pre post) := by
  refine ⟨?_, ?_, ?_⟩
  · intro p h' v' _
    cases p <;> simp [plainMaker, defaultsH_none _ h1, defaultsH_none _ h2] <;> exact Kept.refl _ _
  · intro p h' v'
    cases p <;> simp [plainMaker, defaultsH_none _ h1, defaultsH_none _ h2]
  · intro c hc; simp [plainMaker] at hc

private theorem prevalidate_plain {pre post : DSchema} (h1 : NoDefaults pre) (h : Heap) : ∀ vs : List Val,
    prevalidateH (plainMaker pre post) h vs = (h, true)
  | [] => rfl
  | v :: vs => by
    simp only [prevalidateH, plainMaker, if_true, defaultsH_none _ h1]
    have := prevalidate_plain (post := post) h1 h vs
    simp only [plainMaker] at this
    rw [this]
    rfl

private theorem build_plain {pre post : DSchema} (h1 : NoDefaults pre) (h2 : NoDefaults post) (fuel : Nat) (h : Heap) (subs : List Val) :
    buildH (plainMaker pre post) fuel h subs = ((mergeAllH fuel h .null subs).1, (mergeAllH fuel h .null subs).2.1) := by
  unfold buildH
  rw [prevalidate_plain h1]
  simp only
  cases e : mergeAllH fuel h .null subs with
  | mk h' q =>
    obtain ⟨m, b⟩ := q
    cases b with
    | false => rfl
    | true => simp [plainMaker, defaultsH_none _ h2, curateH]

private theorem run_append (mk : MakerH) (fuel : Nat) (b : List MakerOp) : ∀ (a : List MakerOp) (s : MakerState),
    makerRun mk fuel s (a ++ b) = makerRun mk fuel (makerRun mk fuel s a) b
  | [], _ => rfl
  | op :: a, s => run_append mk fuel b a (makerStep mk fuel s op)

/-- C125: with schemas without defaults, what is built depends only on what the submodels were when they were added, not on what was
built before: it is the submodels merged (C25), if they can be. -/
theorem C125_build_partial (pre post : DSchema) (h1 : NoDefaults pre) (h2 : NoDefaults post) (n fuel : Nat) (hf : n < fuel) (h : Heap)
    (ops : List MakerOp) (ds : List Doc) (ht : Told (plainMaker pre post) fuel (makerNew h) ops ds) (hd : ∀ d ∈ ds, DepthLe n d) :
    Reads (whole (makerRun (plainMaker pre post) fuel (makerNew h) (ops ++ [.build])).heap)
      (makerRun (plainMaker pre post) fuel (makerNew h) (ops ++ [.build])).model (mergeAll .null ds).1 := by
  have hs := C125_submodels_partial _ fuel (careful_plain h1 h2) h ops ds ht
  rw [run_append]
  generalize makerRun (plainMaker pre post) fuel (makerNew h) ops = s at *
  show Reads (whole (buildH (plainMaker pre post) fuel s.heap s.subs).1) (buildH (plainMaker pre post) fuel s.heap s.subs).2 _
  rw [build_plain h1 h2]
  exact (C28_merge_all_reads n fuel hf s.subs ds s.heap .null .null .null hs (.null n) hd).1

/-- Nothing is asked for. -/
private def anySchema : DSchema := .mk none []
/-- `{"properties": {"n": {"properties": {"x": {"default": 1}}}}}` -/
private def deepDefault : DSchema := .mk none [("n".toList, .mk none [("x".toList, .mk (some (.int 1)) [])])]
/-- The objects `{}`, `{"n": {}}`, `{"x": None}` and `{"n": {"x": None}}`. -/
private def fourObjects : Heap := [.dict [], .dict [("n".toList, .ref 0)], .dict [("x".toList, .null)], .dict [("n".toList, .ref 2)]]

private theorem any_none : NoDefaults anySchema := .mk _ _ (by simp) (by simp)

/-- C125 fails with defaults: building in between changes what is built later, because the defaults are written to the submodels. -/
theorem C125_refuted : let run := fun ops => makerRun (plainMaker anySchema deepDefault) 10 (makerNew fourObjects) ops
    Told (plainMaker anySchema deepDefault) 10 (makerNew fourObjects) [.add (.ref 1), .add (.ref 3), .build]
      [.dict [("n".toList, .dict [])], .dict [("n".toList, .dict [("x".toList, .null)])]] ∧
    Told (plainMaker anySchema deepDefault) 10 (makerNew fourObjects) [.add (.ref 1), .build, .add (.ref 3), .build]
      [.dict [("n".toList, .dict [])], .dict [("n".toList, .dict [("x".toList, .null)])]] ∧
    Reads (whole (run [.add (.ref 1), .add (.ref 3), .build]).heap) (run [.add (.ref 1), .add (.ref 3), .build]).model
      (.dict [("n".toList, .dict [("x".toList, .null)])]) ∧
    Reads (whole (run [.add (.ref 1), .build, .add (.ref 3), .build]).heap) (run [.add (.ref 1), .build, .add (.ref 3), .build]).model
      (.dict [("n".toList, .dict [("x".toList, .int 1)])]) := by
  have r1 : ∀ g : View, g 0 = some (.dict []) → g 1 = some (.dict [("n".toList, .ref 0)]) → Reads g (.ref 1) (.dict [("n".toList, .dict [])]) :=
    fun g h0 h1 => .dict 1 _ _ h1 (.cons _ _ _ _ _ (.dict 0 _ _ h0 .nil) .nil)
  have r3 : ∀ g : View, g 2 = some (.dict [("x".toList, .null)]) → g 3 = some (.dict [("n".toList, .ref 2)]) →
      Reads g (.ref 3) (.dict [("n".toList, .dict [("x".toList, .null)])]) :=
    fun g h2 h3 => .dict 3 _ _ h3 (.cons _ _ _ _ _ (.dict 2 _ _ h2 (.cons _ _ _ _ _ .null .nil)) .nil)
  refine ⟨.add _ _ _ _ _ (r1 _ rfl rfl) (.add _ _ _ _ _ (r3 _ rfl rfl) (.build _ _ _ (.done _))),
    .add _ _ _ _ _ (r1 _ rfl rfl) (.build _ _ _ (.add _ _ _ _ _ (r3 _ (by decide +kernel) (by decide +kernel)) (.build _ _ _ (.done _)))), ?_, ?_⟩
  · have hm : (makerRun (plainMaker anySchema deepDefault) 10 (makerNew fourObjects) [.add (.ref 1), .add (.ref 3), .build]).model = .ref 5 := by decide +kernel
    simp only [hm]
    exact .dict 5 [("n".toList, .ref 6)] _ (by decide +kernel)
      (.cons _ _ _ _ _ (.dict 6 [("x".toList, .null)] _ (by decide +kernel) (.cons _ _ _ _ _ .null .nil)) .nil)
  · have hm : (makerRun (plainMaker anySchema deepDefault) 10 (makerNew fourObjects) [.add (.ref 1), .build, .add (.ref 3), .build]).model = .ref 6 := by decide +kernel
    simp only [hm]
    exact .dict 6 [("n".toList, .ref 7)] _ (by decide +kernel)
      (.cons _ _ _ _ _ (.dict 7 [("x".toList, .int 1)] _ (by decide +kernel) (.cons _ _ _ _ _ (.int 1) .nil)) .nil)


/-! A case that meets the hypotheses: no defaults, with a build in between. -/
example : NoDefaults anySchema ∧ Told (plainMaker anySchema anySchema) 10 (makerNew [.dict []]) [.add (.ref 0), .build, .new (.list [.int 1]), .add .null]
    [.dict [], .null] :=
  ⟨any_none, .add _ _ _ _ _ (.dict 0 _ _ rfl .nil) (.build _ _ _ (.new _ _ _ _ (.add _ _ _ _ _ .null (.done _))))⟩
example : Careful 3 (plainMaker anySchema anySchema) := careful_plain any_none any_none 3

end Props
