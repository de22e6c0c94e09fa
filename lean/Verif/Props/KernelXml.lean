import Verif.Lemmas.KernelXml
/-!
C233 to C242: kernels described in XML files.
-/

namespace Verif.KernelXml
open Spec
open Classical

/-! ### concrete values for the examples -/

/-- an arbitrary choice of the two units, for examples (`ComputationEngineRendererExtension.py:37-40` uses those of
`pyre`) -/
noncomputable def demoU : Units := ⟨16 / 10 ^ 23, 1 / 10 ^ 10, by norm_num, by norm_num⟩

/-- a reader for a handful of texts, for examples; the real ones are external (`AbstractNode.py:62-66`) -/
noncomputable def demoEnv : Env where
  parse t :=
    if t = "2/cm" then .ok (.sc (.qty ⟨200, ⟨0, -1, 0⟩⟩))
    else if t = "3/m" then .ok (.sc (.qty ⟨3, ⟨0, -1, 0⟩⟩))
    else if t = "10*meV" then .ok (.sc (.qty ⟨10 * (16 / 10 ^ 23), ⟨1, 2, -2⟩⟩))
    else if t = "range" then .ok (.vec [.num (-10), .num 10])
    else if t = "qrange" then .ok (.vec [.num 0, .num 5])
    else if t = "(0, 1, 0.1)" then .ok (.vec [.num 0, .num 1, .num (1/10)])
    else .error .valueError
  float t := if t = "2" then .ok 2 else if t = "0.6" then .ok (6/10) else if t = "-1" then .ok (-1) else .error .valueError
  int t := if t = "0" then .ok 0 else .error .valueError
  rot t := if t = "flip" then .ok ⟨⟨-1, 0, 0⟩, ⟨0, -1, 0⟩, ⟨0, 0, 1⟩⟩ else .error .valueError
  load _ := .error .ioError
  readIdf _ := .error .ioError

instance (t : String) : Decidable (Yes t) := by unfold Yes; infer_instance
instance (t : String) : Decidable (No t) := by unfold No; infer_instance
instance (t : String) : Decidable (CleanText t) := by unfold CleanText; infer_instance

/-- a sample whose coefficients are 50 and 60 per metre, for examples -/
noncomputable def demoS : Sample Unit where
  xs _ _ := .ok (.sc (.num 50), .sc (.num 60))
  vol _ := .ok 100

/-! ### C233: removal of units -/

/-- C233: a scalar comes out as the number `y` exactly if it was the bare number `y` or a quantity of
`y` times the unit; everything else is refused. -/
theorem C233_scalar {u : Qty} (hu : u.v ≠ 0) (s : Sc) (v : Val) :
    removeUnit (.sc s) u = .ok v ↔ ∃ y, Worth u s y ∧ v = .sc (.num y) := by
  constructor
  · intro h
    cases s with
    | num x =>
      simp only [removeUnit, Sc.plain, if_true] at h
      cases h
      exact ⟨x, .inl rfl, rfl⟩
    | qty q =>
      by_cases hd : q.d = u.d
      · refine ⟨q.v / u.v, .inr ?_, ?_⟩
        · obtain ⟨v', d⟩ := q
          simp only at hd
          subst hd
          simp [div_mul_cancel₀ _ hu]
        · simp only [removeUnit, Sc.plain, removeScalar, Sc.compatible, hd, decide_true, if_true, Sc.div, Except.map,
            Bool.false_eq_true, if_false] at h
          cases h
          rfl
      · simp [removeUnit, Sc.plain, removeScalar, Sc.compatible, hd, Except.map] at h
  · rintro ⟨y, h, rfl⟩
    exact removeUnit_sc hu h

/-- 5 cm in metres -/
example : removeUnit (.sc (.qty ⟨5 / 100, ⟨0, 1, 0⟩⟩)) meter = .ok (.sc (.num (5 / 100))) :=
  (C233_scalar (u := meter) (by norm_num [meter]) _ _).2 ⟨5 / 100, .inr (by simp [meter]), rfl⟩

/-- C233: a vector comes out as numbers exactly if it was bare numbers, or all its elements were
quantities of the right dimension; mixtures are refused. -/
theorem C233_vector {u : Qty} (hu : u.v ≠ 0) (l : List Sc) (v : Val) :
    removeUnit (.vec l) u = .ok v ↔ ∃ ys : List ℝ, v = .vec (ys.map .num) ∧
      (l = ys.map .num ∨ l = ys.map fun y => .qty ⟨y * u.v, u.d⟩) := by
  by_cases hl : l.all Sc.plain = true
  · simp only [removeUnit, if_pos hl]
    obtain ⟨ys, rfl⟩ := all_plain_iff.1 hl
    constructor
    · intro h
      cases h
      exact ⟨ys, rfl, .inl rfl⟩
    · rintro ⟨zs, rfl, h | h⟩
      · rw [h]
      · cases zs with
        | nil => cases ys with
          | nil => rfl
          | cons y ys => simp at h
        | cons z zs => cases ys <;> simp at h
  · have hf : l.all Sc.plain = false := by simpa using hl
    simp only [removeUnit, if_neg hl]
    constructor
    · intro h
      cases hr : removeVector l u with
      | error e => rw [hr] at h; simp [Except.map] at h
      | ok w =>
        rw [hr] at h
        simp only [Except.map] at h
        cases h
        obtain ⟨ys, rfl, h2⟩ := (removeVector_iff hu hf).1 hr
        exact ⟨ys, rfl, .inr h2⟩
    · rintro ⟨ys, rfl, h | h⟩
      · exact absurd (all_plain_iff.2 ⟨ys, h⟩) hl
      · rw [(removeVector_iff hu hf).2 ⟨ys, rfl, h⟩]
        rfl

/-- (1 m, 1 cm) in metres; and (1 m, 2) is refused -/
example : removeUnit (.vec [.qty ⟨1, ⟨0, 1, 0⟩⟩, .qty ⟨1 / 100, ⟨0, 1, 0⟩⟩]) meter = .ok (.vec [.num 1, .num (1 / 100)]) :=
  (C233_vector (u := meter) (by norm_num [meter]) _ _).2 ⟨[1, 1 / 100], rfl, .inr (by simp [meter])⟩
example : removeUnit (.vec [.qty ⟨1, ⟨0, 1, 0⟩⟩, .num 2]) meter = .error .valueError := by
  simp [removeUnit, removeVector, divideVector, Sc.plain, Sc.compatible, Sc.div, meter, Except.map]

/-! ### C234: the parameters of a kernel reach C++ -/

/-- C234: for the kernels whose coefficients can be given in the file, the C++ object receives
exactly the values written there, converted to its units and in its order, whatever the sample is. -/
theorem C234_parameters {O : Type} (env : Env) (U : Units) (S : Sample O) (o : O) {tag : String}
    {as : List (String × String)} {c : Call CFn} (hc : Clean as) (hw : Written env U as tag c)
    (h1 : as.lookup "weight" = none) (h2 : as.lookup "orientation" = none) :
    load env U S o (.node "homogeneous_scatterer" [] [.node tag as []])
      = .ok ⟨.call c, [0, 1, 5/100], 5, 0, 1, none⟩ := by
  have hd : Described env U (.node tag as []) (.call c) 1 M3.one :=
    .leaf hc hw (.inl ⟨h1, rfl⟩) (.inl ⟨h2, rfl⟩)
  obtain ⟨k, h3, h4, _, _⟩ := described_parse S o hd
  exact load_default (described_tag hd) h3 h4

/-- attributes of an element that loses 10 meV -/
def demoAttrs : List (String × String) :=
  [("energy-transfer", "10*meV"), ("absorption_coefficient", "2/cm"), ("scattering_coefficient", "3/m")]

theorem demo_coefs : Coefs demoEnv demoAttrs 200 3 :=
  ⟨"2/cm", "3/m", .qty ⟨200, ⟨0, -1, 0⟩⟩, .qty ⟨3, ⟨0, -1, 0⟩⟩, by simp [demoAttrs, List.lookup], by simp [demoAttrs, List.lookup],
    by simp, by simp, by simp [demoEnv], by simp [demoEnv], .inr ⟨rfl, rfl⟩⟩

theorem demo_written : Written demoEnv demoU demoAttrs "ConstantEnergyTransferKernel"
    ⟨"ConstantEnergyTransferKernel", [10, 200, 3], [], none⟩ :=
  .constE demo_coefs ⟨"10*meV", .qty ⟨10 * (16 / 10 ^ 23), ⟨1, 2, -2⟩⟩, by simp [demoAttrs, List.lookup], by simp,
    by simp [demoEnv], .inr (by simp [Spec.meV, demoU])⟩

theorem demo_clean : Clean demoAttrs := by
  intro a ha
  simp only [demoAttrs, List.mem_cons, List.not_mem_nil, or_false] at ha
  rcases ha with rfl | rfl | rfl <;> decide

/-- 10 meV, 2/cm and 3/m: the C++ object gets 10, 200, 3 -/
example : load demoEnv demoU demoS () (.node "homogeneous_scatterer" []
    [.node "ConstantEnergyTransferKernel" demoAttrs []])
    = .ok ⟨.call ⟨"ConstantEnergyTransferKernel", [10, 200, 3], [], none⟩, [0, 1, 5/100], 5, 0, 1, none⟩ :=
  C234_parameters _ _ _ _ demo_clean demo_written (by simp [demoAttrs, List.lookup]) (by simp [demoAttrs, List.lookup])

/-! ### C235: coefficients -/

/-- C235 (partial): without coefficients in the file, those of the sample are used.  Missing: a
coefficient given alone is lost, see `C235_alone_false`, and the kernels S(Q), S(Q,E), S(Q vector)
do not read theirs, see `C235_unread_false`. -/
theorem C235_sample_partial {O : Type} (env : Env) (U : Units) (S : Sample O) (o : O) {as : List (String × String)} {a s : ℝ}
    (hc : Clean as) (h1 : as.lookup "weight" = none) (h2 : as.lookup "orientation" = none)
    (h3 : as.lookup "absorption_coefficient" = none) (h4 : as.lookup "scattering_coefficient" = none)
    (hx : S.xs o .dflt = .ok (.sc (.qty ⟨a, ⟨0, -1, 0⟩⟩), .sc (.qty ⟨s, ⟨0, -1, 0⟩⟩))) :
    load env U S o (.node "homogeneous_scatterer" [] [.node "IsotropicKernel" as []])
      = .ok ⟨.call ⟨"IsotropicKernel", [a, s], [], none⟩, [0, 1, 5/100], 5, 0, 1, none⟩ := by
  refine load_default (k := .leaf (.iso .none .none) none (some 1) none) (by simp) ?_ ?_
  · simp only [parseNode, decode_clean hc, ok_bind]
    rw [create_leaf (by simp)]
    simp [createLeaf, coef_none (key := keyAbs) h3, coef_none (key := keySc) h4, weightOf_none h1, rotOf_none h2, ok_bind, parseKids]
  · have := removePair_qty (a := a) (s := s) (u := perMeter) (by norm_num [perMeter])
    simp only [perMeter, mul_one] at this
    simp [setOrigin, engine, renderLeaf, coefs, Val.isNone, needOrigin, ok_bind, hx, perMeter, this]

/-- a sample with 50 and 60 per metre, and an element without attributes -/
example : load demoEnv demoU (⟨fun _ _ => .ok (.sc (.qty ⟨50, ⟨0, -1, 0⟩⟩), .sc (.qty ⟨60, ⟨0, -1, 0⟩⟩)), fun _ => .ok 1⟩ : Sample Unit) ()
    (.node "homogeneous_scatterer" [] [.node "IsotropicKernel" [] []])
    = .ok ⟨.call ⟨"IsotropicKernel", [50, 60], [], none⟩, [0, 1, 5/100], 5, 0, 1, none⟩ :=
  C235_sample_partial _ _ _ _ clean_nil rfl rfl rfl rfl rfl

/-- C235 is false: of a kernel with an absorption coefficient of 200/m and none for scattering, both
numbers are replaced by those of the sample. -/
theorem C235_alone_false : ¬ ∀ (env : Env) (U : Units) (S : Sample Unit) (as : List (String × String)) (a : ℝ) (k : CScat)
    (nums : List ℝ), Clean as → Given env as "absorption_coefficient" perMeter a →
    load env U S () (.node "homogeneous_scatterer" [] [.node "IsotropicKernel" as []]) = .ok k →
    k.kernel = .call ⟨"IsotropicKernel", nums, [], none⟩ → nums.head? = some a := by
  intro h
  have := h demoEnv demoU demoS [("absorption_coefficient", "2/cm")] 200
    ⟨.call ⟨"IsotropicKernel", [50, 60], [], none⟩, [0, 1, 5/100], 5, 0, 1, none⟩ [50, 60]
    (by intro a ha; simp only [List.mem_cons, List.not_mem_nil, or_false] at ha; subst ha; decide)
    ⟨"2/cm", .qty ⟨200, ⟨0, -1, 0⟩⟩, rfl, by simp, by simp [demoEnv], .inr (by simp [perMeter])⟩
    (by
      refine load_default (k := .leaf (.iso (.sc (.qty ⟨200, ⟨0, -1, 0⟩⟩)) .none) none (some 1) none) (by simp) ?_ ?_
      · simp only [parseNode]
        rw [decode_clean (by
          intro a ha; simp only [List.mem_cons, List.not_mem_nil, or_false] at ha; subst ha; decide), ok_bind, create_leaf (by simp)]
        simp [createLeaf, coef, keyAbs, keySc, List.lookup, demoEnv, weightOf, rotOf, ok_bind, parseKids]
      · simp [setOrigin, engine, renderLeaf, coefs, Val.isNone, needOrigin, ok_bind, demoS, removePair_num])
    rfl
  norm_num at this

/-- C235 is false: `SQkernel` does not read its coefficients at all; the sample's are used although
both are given. -/
theorem C235_unread_false : ¬ ∀ (env : Env) (U : Units) (S : Sample Unit) (as : List (String × String)) (kids : List Xml) (a s : ℝ)
    (k : CScat) (nums : List ℝ) (g : CFn), Clean as → Coefs env as a s →
    load env U S () (.node "homogeneous_scatterer" [] [.node "SQkernel" as kids]) = .ok k →
    k.kernel = .call ⟨"SQkernel", nums, [], some g⟩ → nums.take 2 = [a, s] := by
  intro h
  have hcl : Clean [("Q-range", "qrange"), ("absorption_coefficient", "2/cm"), ("scattering_coefficient", "3/m")] := by
    intro a ha; simp only [List.mem_cons, List.not_mem_nil, or_false] at ha; rcases ha with rfl | rfl | rfl <;> decide
  have := h demoEnv demoU demoS [("Q-range", "qrange"), ("absorption_coefficient", "2/cm"), ("scattering_coefficient", "3/m")]
    [.node "SQ_fromexpression" [("expression", "1")] []] 200 3
    ⟨.call ⟨"SQkernel", [50, 60, 0, 5], [], some (.expr "SQ_fromexpression" "1")⟩, [0, 1, 5/100], 5, 0, 1, none⟩ [50, 60, 0, 5]
    (.expr "SQ_fromexpression" "1") hcl
    ⟨"2/cm", "3/m", .qty ⟨200, ⟨0, -1, 0⟩⟩, .qty ⟨3, ⟨0, -1, 0⟩⟩, by simp [List.lookup], by simp [List.lookup],
      by simp, by simp, by simp [demoEnv], by simp [demoEnv], .inr ⟨rfl, rfl⟩⟩
    (by
      refine load_default (k := .leaf (.sq .none .none (some (.exprSQ "1")) (.vec [.num 0, .num 5])) none (some 1) none) (by simp) ?_ ?_
      · simp only [parseNode]
        rw [decode_clean hcl, ok_bind, create_leaf (by simp)]
        have hd : decode [("expression", "1")] = .ok [("expression", "1")] := decode_clean (by
          intro a ha; simp only [List.mem_cons, List.not_mem_nil, or_false] at ha; subst ha; decide)
        simp [createLeaf, needVal, need, List.lookup, demoEnv, weightOf, rotOf, ok_bind, parseKids, parseNode, hd, create, notify]
      · simp [setOrigin, engine, renderLeaf, coefs, Val.isNone, needOrigin, ok_bind, demoS, removePair_num, removeUnit, Sc.plain,
          renderOpt, renderFn, pair])
    rfl
  norm_num at this

/-- C235: the kernel with focusing does refuse a cross section given alone. -/
theorem C235_focus {O : Type} (U : Units) (S : Sample O) (o : Option O) (a v qr er ef de : Val) (f : Option Fn)
    (ha : a ≠ .none) : ∀ c, renderLeaf U S o (.sqeFocus a .none v f qr er ef de) ≠ .ok c := by
  intro c h
  simp only [renderLeaf] at h
  cases h1 : removeUnit er U.energy with
  | error e => rw [h1, err_bind] at h; cases h
  | ok x1 =>
  cases h2 : removeUnit qr U.perAngstrom with
  | error e => rw [h1, ok_bind, h2, err_bind] at h; cases h
  | ok x2 =>
  cases h3 : removeUnit ef U.energy with
  | error e => rw [h1, ok_bind, h2, ok_bind, h3, err_bind] at h; cases h
  | ok x3 =>
  cases h4 : removeUnit de U.energy with
  | error e => rw [h1, ok_bind, h2, ok_bind, h3, ok_bind, h4, err_bind] at h; cases h
  | ok x4 =>
  cases h5 : renderOpt f with
  | error e => rw [h1, ok_bind, h2, ok_bind, h3, ok_bind, h4, ok_bind, h5, err_bind] at h; cases h
  | ok g =>
  rw [h1, ok_bind, h2, ok_bind, h3, ok_bind, h4, ok_bind, h5, ok_bind] at h
  have hn : a.isNone = false := by
    cases a with
    | none => exact absurd rfl ha
    | _ => rfl
  rw [hn] at h
  simp only [Val.isNone, bne_iff_ne, ne_eq, Bool.false_eq_true, not_false_eq_true, if_true, err_bind] at h
  cases h

example : renderLeaf demoU demoS (some ()) (.sqeFocus (.sc (.num 1)) .none .none (some (.exprSQE "1")) (.vec [.num 0, .num 5])
    (.vec [.num (-10), .num 10]) (.sc (.num 20)) (.sc (.num 1))) = .error .runtimeError := by
  simp [renderLeaf, removeUnit, Sc.plain, ok_bind, renderOpt, renderFn, Val.isNone, err_bind]

/-! ### C236: containers -/

/-- C236 (partial): containers, nested to any depth, become composite kernels with the kernels, the
weights and the orientations in the order of the file.  Missing: orientations of containers
(`C236_box_false`) and of a kernel that is in no container (`C236_top_false`). -/
theorem C236_tree_partial {O : Type} (env : Env) (U : Units) (S : Sample O) (o : O) {x : Xml} {c : CKern} {w : ℝ}
    (h : Described env U x c w M3.one) :
    load env U S o (.node "homogeneous_scatterer" [] [x]) = .ok ⟨c, [0, 1, 5/100], 5, 0, 1, none⟩ := by
  obtain ⟨tag, as, kids⟩ := x
  obtain ⟨k, h3, h4, _, _⟩ := described_parse S o h
  exact load_default (described_tag h) h3 h4

theorem demo_clean2 : Clean [("average", "Yes")] ∧ Clean [("weight", "2")] ∧
    Clean (demoAttrs ++ [("weight", "0.6"), ("orientation", "flip")]) := by
  refine ⟨?_, ?_, ?_⟩ <;> intro a ha <;>
    simp only [demoAttrs, List.cons_append, List.nil_append, List.mem_cons, List.not_mem_nil, or_false] at ha
  · subst ha; decide
  · subst ha; decide
  · rcases ha with rfl | rfl | rfl | rfl | rfl <;> decide

/-- a container with a container of weight 2 holding a turned kernel of weight 0.6 -/
example : load demoEnv demoU demoS () (.node "homogeneous_scatterer" [] [.node "KernelContainer" [("average", "Yes")]
      [.node "KernelContainer" [("weight", "2")]
        [.node "ConstantEnergyTransferKernel" (demoAttrs ++ [("weight", "0.6"), ("orientation", "flip")]) []]]])
    = .ok ⟨.comp [.comp [.call ⟨"ConstantEnergyTransferKernel", [10, 200, 3], [], none⟩] [6/10]
        [⟨⟨-1, 0, 0⟩, ⟨0, -1, 0⟩, ⟨0, 0, 1⟩⟩] false] [2] [M3.one] true, [0, 1, 5/100], 5, 0, 1, none⟩ := by
  have hw : Written demoEnv demoU (demoAttrs ++ [("weight", "0.6"), ("orientation", "flip")]) "ConstantEnergyTransferKernel"
      ⟨"ConstantEnergyTransferKernel", [10, 200, 3], [], none⟩ :=
    .constE ⟨"2/cm", "3/m", .qty ⟨200, ⟨0, -1, 0⟩⟩, .qty ⟨3, ⟨0, -1, 0⟩⟩, by simp [demoAttrs, List.lookup],
      by simp [demoAttrs, List.lookup], by simp, by simp, by simp [demoEnv], by simp [demoEnv], .inr ⟨rfl, rfl⟩⟩
      ⟨"10*meV", .qty ⟨10 * (16 / 10 ^ 23), ⟨1, 2, -2⟩⟩, by simp [demoAttrs, List.lookup], by simp,
      by simp [demoEnv], .inr (by simp [Spec.meV, demoU])⟩
  refine C236_tree_partial _ _ _ _ (.box (w := 1) demo_clean2.1 ?_ (.inl ⟨by simp [List.lookup], rfl⟩)
    (.inr ⟨"Yes", by simp [List.lookup], .inl ⟨by decide, rfl⟩⟩)
    (.cons (.box demo_clean2.2.1 ?_ (.inr ⟨"2", by simp [List.lookup], by simp, by simp [demoEnv], by norm_num⟩)
      (.inl ⟨by simp [List.lookup], rfl⟩)
      (.cons (.leaf demo_clean2.2.2 hw (.inr ⟨"0.6", by simp [demoAttrs, List.lookup], by simp, by simp [demoEnv], by norm_num⟩)
        (.inr ⟨"flip", by simp [demoAttrs, List.lookup], by simp [demoEnv]⟩)) .nil)) .nil))
  · simp
  · simp

/-- C236: a weight that is not positive is refused. -/
theorem C236_weight {O : Type} (env : Env) (U : Units) {tag : String} {as : List (String × String)} {c : Call CFn} {t : String} {x : ℝ}
    (hc : Clean as) (hw : Written env U as tag c) (ht : as.lookup "weight" = some t) (hne : t ≠ "")
    (hf : env.float t = .ok x) (hx : x ≤ 0) : parseNode (O := O) env (.node tag as []) = .error .valueError := by
  obtain ⟨l, h1, -⟩ := written_leaf (O := Unit) ⟨fun _ _ => .error .keyError, fun _ => .error .keyError⟩ none hw
  simp only [parseNode, decode_clean hc, ok_bind, written_create hw, h1]
  simp [weightOf, ht, hne, hf, ok_bind, hx, err_bind]

example : parseNode (O := Unit) demoEnv (.node "ConstantEnergyTransferKernel" (demoAttrs ++ [("weight", "-1")]) [])
    = .error .valueError := by
  have hw : Written demoEnv demoU (demoAttrs ++ [("weight", "-1")]) "ConstantEnergyTransferKernel"
      ⟨"ConstantEnergyTransferKernel", [10, 200, 3], [], none⟩ :=
    .constE ⟨"2/cm", "3/m", .qty ⟨200, ⟨0, -1, 0⟩⟩, .qty ⟨3, ⟨0, -1, 0⟩⟩, by simp [demoAttrs, List.lookup],
      by simp [demoAttrs, List.lookup], by simp, by simp, by simp [demoEnv], by simp [demoEnv], .inr ⟨rfl, rfl⟩⟩
      ⟨"10*meV", .qty ⟨10 * (16 / 10 ^ 23), ⟨1, 2, -2⟩⟩, by simp [demoAttrs, List.lookup], by simp,
      by simp [demoEnv], .inr (by simp [Spec.meV, demoU])⟩
  refine C236_weight demoEnv demoU ?_ hw (t := "-1") (x := -1) (by simp [demoAttrs, List.lookup]) (by simp) (by simp [demoEnv])
    (by norm_num)
  intro a ha
  simp only [demoAttrs, List.cons_append, List.nil_append, List.mem_cons, List.not_mem_nil, or_false] at ha
  rcases ha with rfl | rfl | rfl | rfl <;> decide

/-- C236 is false: a container with the attribute `orientation` is refused whatever it contains. -/
theorem C236_box_false {O : Type} (env : Env) (as : List (String × String)) (kids : List Xml) (t : String) (hc : Clean as)
    (h : ("orientation", t) ∈ as) : parseNode (O := O) env (.node "KernelContainer" as kids) = .error .typeError := by
  have hk : knownKeys as = false := by
    rw [← Bool.not_eq_true]
    intro hk
    have := (List.all_eq_true.1 hk) _ h
    simp at this
  simp only [parseNode, decode_clean hc, ok_bind, create, hk, if_true, Bool.false_eq_true, if_false, err_bind]

example : Clean [("orientation", "flip")] := by
  intro a ha; simp only [List.mem_cons, List.not_mem_nil, or_false] at ha; subst ha; decide

/-- C236 is false: the orientation of a kernel that is in no container has no effect.  The same
kernel with two different orientations gives the same C++ scatterer. -/
theorem C236_top_false : ∃ (env : Env) (U : Units) (S : Sample Unit) (as : List (String × String)) (m : M3 ℝ) (k : CScat),
    m ≠ M3.one ∧ as.lookup "orientation" = none ∧ env.rot "flip" = .ok m ∧
    load env U S () (.node "homogeneous_scatterer" [] [.node "ConstantEnergyTransferKernel" as []]) = .ok k ∧
    load env U S () (.node "homogeneous_scatterer" []
      [.node "ConstantEnergyTransferKernel" (as ++ [("orientation", "flip")]) []]) = .ok k := by
  have hw : Written demoEnv demoU (demoAttrs ++ [("orientation", "flip")]) "ConstantEnergyTransferKernel"
      ⟨"ConstantEnergyTransferKernel", [10, 200, 3], [], none⟩ :=
    .constE ⟨"2/cm", "3/m", .qty ⟨200, ⟨0, -1, 0⟩⟩, .qty ⟨3, ⟨0, -1, 0⟩⟩, by simp [demoAttrs, List.lookup],
      by simp [demoAttrs, List.lookup], by simp, by simp, by simp [demoEnv], by simp [demoEnv], .inr ⟨rfl, rfl⟩⟩
      ⟨"10*meV", .qty ⟨10 * (16 / 10 ^ 23), ⟨1, 2, -2⟩⟩, by simp [demoAttrs, List.lookup], by simp,
      by simp [demoEnv], .inr (by simp [Spec.meV, demoU])⟩
  have hcl : Clean (demoAttrs ++ [("orientation", "flip")]) := by
    intro a ha
    simp only [demoAttrs, List.cons_append, List.nil_append, List.mem_cons, List.not_mem_nil, or_false] at ha
    rcases ha with rfl | rfl | rfl | rfl <;> decide
  have hd : Described demoEnv demoU (.node "ConstantEnergyTransferKernel" (demoAttrs ++ [("orientation", "flip")]) [])
      (.call ⟨"ConstantEnergyTransferKernel", [10, 200, 3], [], none⟩) 1 ⟨⟨-1, 0, 0⟩, ⟨0, -1, 0⟩, ⟨0, 0, 1⟩⟩ :=
    .leaf hcl hw (.inl ⟨by simp [demoAttrs, List.lookup], rfl⟩)
      (.inr ⟨"flip", by simp [demoAttrs, List.lookup], by simp [demoEnv]⟩)
  obtain ⟨k, h3, h4, _, _⟩ := described_parse demoS () hd
  refine ⟨demoEnv, demoU, demoS, demoAttrs, ⟨⟨-1, 0, 0⟩, ⟨0, -1, 0⟩, ⟨0, 0, 1⟩⟩, _, ?_, by simp [demoAttrs, List.lookup],
    by simp [demoEnv], C234_parameters _ _ _ _ demo_clean demo_written (by simp [demoAttrs, List.lookup])
      (by simp [demoAttrs, List.lookup]), load_default (by simp) h3 h4⟩
  intro h
  simp only [M3.one, M3.mk.injEq, V3.mk.injEq] at h
  norm_num at h

/-! ### C237: the attribute `average` -/

/-- C237 (partial): the flag of a container is on exactly if the text is one of the ways to say yes.
Missing: texts that say neither yes nor no are not refused, see `C237_false`. -/
theorem C237_partial (env : Env) (t : String) (ht : CleanText t) (hne : t ≠ "") :
    ∃ b, parseNode (O := Unit) env (.node "KernelContainer" [("average", t)] []) = .ok (.kern (.comp (.bool b) (some 1) none [])) ∧
      (b = true ↔ Yes t) := by
  refine ⟨decide (Yes t), ?_, by simp⟩
  have hc : Clean [("average", t)] := by
    intro a ha; simp only [List.mem_cons, List.not_mem_nil, or_false] at ha; subst ha; exact ht
  have hk : knownKeys [("average", t)] = true := by simp [knownKeys]
  simp [parseNode, decode_clean hc, ok_bind, create, hk, weightOf, rotOf, List.lookup, avgOf, hne, parseKids, Yes, lower]

example : CleanText "ON" ∧ "ON" ≠ "" ∧ Yes "ON" := by decide

/-- C237 is false: `average="enabled"` is taken for no. -/
theorem C237_false : ¬ ∀ (env : Env) (t : String) (k : Obj Unit), CleanText t → t ≠ "" →
    parseNode env (.node "KernelContainer" [("average", t)] []) = .ok k → Yes t ∨ No t := by
  intro h
  obtain ⟨b, hb, -⟩ := C237_partial demoEnv "enabled" (by decide) (by decide)
  have := h demoEnv "enabled" _ (by decide) (by decide) hb
  revert this
  decide

/-! ### C238: writing and reading -/

/-- C238 (partial): a kernel without coefficients of one of six classes, with weight 1 and no
orientation, is read back as it was written if its texts need no escaping and its values are printed
in a form the parser understands.  Missing: everything in the theorems `C238_..._false`. -/
theorem C238_roundtrip_partial {O : Type} (env : Env) (sh : Val → String) {l : Leaf} {vs : List Val} {ts : List String}
    (h : Plain l vs ts) (hv : ∀ v ∈ vs, Prints env sh v) (ht : ∀ t ∈ ts, CleanText t) :
    ∃ o, write sh (.leaf l none (some 1) none : Kern O) = .ok o ∧
      parseNode (O := O) env o.xml = .ok (.kern (.leaf l none (some 1) none)) := by
  obtain ⟨o, h1, -, h3⟩ := plain_roundtrip (O := O) h hv ht
  exact ⟨o, h1, h3⟩

/-- a kernel with a fixed energy transfer, printed as "10*meV" -/
example : Plain (.constE (.sc (.qty ⟨10 * (16 / 10 ^ 23), ⟨1, 2, -2⟩⟩)) .none .none) [.sc (.qty ⟨10 * (16 / 10 ^ 23), ⟨1, 2, -2⟩⟩)] [] ∧
    Prints demoEnv (fun _ => "10*meV") (.sc (.qty ⟨10 * (16 / 10 ^ 23), ⟨1, 2, -2⟩⟩)) :=
  ⟨.constE, by decide, by simp [demoEnv]⟩

/-- C238 is false: of every kernel S(Q,E) with an expression, the range of Q is replaced by the range
of energies when it is written and read again. -/
theorem C238_range_false {O : Type} (env : Env) (sh : Val → String) (e : String) (qr er : Val) (he : CleanText e)
    (hp : Prints env sh er) : ∃ o, write sh (.leaf (.sqe .none .none .none (some (.exprSQE e)) qr er) none (some 1) none : Kern O) = .ok o ∧
      parseNode (O := O) env o.xml = .ok (.kern (.leaf (.sqe .none .none .none (some (.exprSQE e)) er er) none (some 1) none)) := by
  refine ⟨_, rfl, ?_⟩
  simp only [parseNode]
  rw [decode_clean (by
    intro a ha; simp only [List.mem_cons, List.not_mem_nil, or_false] at ha
    rcases ha with rfl | rfl <;> exact hp.1), ok_bind, create_leaf (by simp)]
  have hd : decode [("expression", e)] = .ok [("expression", e)] := decode_clean (by
    intro a ha; simp only [List.mem_cons, List.not_mem_nil, or_false] at ha; subst ha; exact he)
  simp [createLeaf, needVal, need, List.lookup, hp.2, weightOf, rotOf, ok_bind, parseKids, parseNode, hd, create, notify]

example : CleanText "1/(1+Q*Q)" ∧ Prints demoEnv (fun _ => "range") (.vec [.num (-10), .num 10]) :=
  ⟨by decide, by decide, by simp [demoEnv]⟩

/-- C238 is false: a container with at least one kernel that is no container can be written, but what is
written cannot be read. -/
theorem C238_container_false {O : Type} (env : Env) (sh : Val → String) (a : Avg) (w : Option ℝ) (r : Option (M3 ℝ))
    (l : Leaf) (og : Option O) (w' : Option ℝ) (r' : Option (M3 ℝ)) (ks : List (Kern O)) (o : Out)
    (h : write sh (.comp a w r (.leaf l og w' r' :: ks)) = .ok o) :
    ∀ k, parseNode (O := O) env o.xml ≠ .ok k := by
  intro k hk
  simp only [write] at h
  cases hw : writeAll sh (.leaf l og w' r' :: ks) with
  | error e => rw [hw, err_bind] at h; cases h
  | ok os =>
    rw [hw, ok_bind] at h
    cases h
    obtain ⟨o1, os', h1, rfl⟩ := writeAll_cons hw
    have hc : create (O := O) env "compositekernel" [] = .ok (.kern (.comp .none none none [])) := by
      simp [create, knownKeys, avgOf]
    simp only [parseNode, decode_clean clean_nil, ok_bind, hc, List.map_cons, parseKids] at hk
    -- whatever the first child is read as, the container has no handler for it
    have hleaf : ∀ x, parseNode (O := O) env o1.xml = .ok x →
        notify "compositekernel" (.kern (.comp .none none none [])) x = .error .attributeError := by
      intro x hx
      simp only [write] at h1
      have key : ∀ tag as kids, o1.xml = .node tag as kids →
          tag ∉ ["KernelContainer", "compositekernel", "SQE_fromexpression", "SQ_fromexpression", "GridSQE", "GridSQ", "GridSvQ"] →
          notify "compositekernel" (.kern (.comp .none none none [])) x = .error .attributeError := by
        intro tag as kids ho ht
        rw [ho] at hx
        simp only [parseNode] at hx
        cases hd : decode as with
        | error e => rw [hd, err_bind] at hx; cases hx
        | ok as' =>
        rw [hd, ok_bind, create_leaf ht] at hx
        cases h2 : createLeaf env tag as' with
        | error e => rw [h2, err_bind] at hx; cases hx
        | ok l' =>
        cases h3 : weightOf env as' with
        | error e => rw [h2, ok_bind, h3, err_bind] at hx; cases hx
        | ok wt =>
        cases h4 : rotOf env as' with
        | error e => rw [h2, ok_bind, h3, ok_bind, h4, err_bind] at hx; cases hx
        | ok rt =>
        rw [h2, ok_bind, h3, ok_bind, h4, ok_bind, ok_bind] at hx
        have hinv : ∀ (kids : List Xml) (l : Leaf) (og : Option O) (w : Option ℝ) (r : Option (M3 ℝ)) (x : Obj O),
            parseKids env tag (.kern (.leaf l og w r)) kids = .ok x → ∃ l', x = .kern (.leaf l' og w r) := by
          intro kids
          induction kids with
          | nil =>
            intro l og w r x hx
            simp only [parseKids] at hx
            cases hx
            exact ⟨l, rfl⟩
          | cons c cs ih =>
            intro l og w r x hx
            simp only [parseKids] at hx
            cases h5 : parseNode (O := O) env c with
            | error e => rw [h5, err_bind] at hx; cases hx
            | ok y =>
            rw [h5, ok_bind] at hx
            cases h6 : notify tag (.kern (.leaf l og w r)) y with
            | error e => rw [h6, err_bind] at hx; cases hx
            | ok z =>
            rw [h6, ok_bind] at hx
            have : ∃ l', z = .kern (.leaf l' og w r) := by
              cases y with
              | kern k => cases l <;> simp [notify] at h6
              | fn f =>
                cases l <;> cases f <;> simp only [notify, reduceCtorEq, Except.ok.injEq] at h6 <;>
                  exact ⟨_, h6.symm⟩
            obtain ⟨l', rfl⟩ := this
            exact ih l' og w r x hx
        obtain ⟨l2, rfl⟩ := hinv kids _ _ _ _ _ hx
        simp [notify]
      cases l with
      | sqe _ _ _ f _ e =>
        simp only [writeLeaf] at h1
        cases f with
        | none => cases h1
        | some f =>
          simp only at h1
          cases hf : writeFn f with
          | error e => rw [hf, err_bind] at h1; cases h1
          | ok o2 =>
            rw [hf, ok_bind] at h1
            cases h1
            exact key _ _ _ rfl (by simp)
      | iso => cases h1; exact key _ _ _ rfl (by simp)
      | constE => cases h1; exact key _ _ _ rfl (by simp)
      | constQE => cases h1; exact key _ _ _ rfl (by simp)
      | constvQE => cases h1; exact key _ _ _ rfl (by simp)
      | eQ => cases h1; exact key _ _ _ rfl (by simp)
      | broad => cases h1; exact key _ _ _ rfl (by simp)
      | sqeFocus => cases h1
      | sq => cases h1
      | svq => cases h1
      | dgs => cases h1
      | lor => cases h1
      | evQ => cases h1
    cases hx : parseNode (O := O) env o1.xml with
    | error e => rw [hx, err_bind] at hk; cases hk
    | ok x =>
      rw [hx, ok_bind, hleaf x hx, err_bind] at hk
      cases hk

example : (write (fun _ => "") (.comp (.bool true) (some 1) none [.leaf (.iso .none .none) none (some 2) none] : Kern Unit)).isOk := by
  simp [write, writeAll, writeLeaf, ok_bind, Except.isOk, Except.toBool]

/-- C238 is false: five classes of kernels cannot be written at all. -/
theorem C238_missing_false {O : Type} (sh : Val → String) (o : Option O) (w : Option ℝ) (r : Option (M3 ℝ)) :
    (∀ a s f q, write sh (.leaf (.sq a s f q) o w r) = .error .attributeError) ∧
    (∀ a s f, write sh (.leaf (.svq a s f) o w r) = .error .attributeError) ∧
    (∀ f g e a s, write sh (.leaf (.evQ f g e a s) o w r) = .error .attributeError) ∧
    (∀ f g k q q' a s, write sh (.leaf (.lor f g k q q' a s) o w r) = .error .attributeError) ∧
    (∀ a s v f q e ef de, write sh (.leaf (.sqeFocus a s v f q e ef de) o w r) = .error .attributeError) ∧
    (∀ p t d x a s, write sh (.leaf (.dgs p t d x a s) o w r) = .error .attributeError) :=
  ⟨fun _ _ _ _ => rfl, fun _ _ _ => rfl, fun _ _ _ _ _ => rfl, fun _ _ _ _ _ _ _ => rfl, fun _ _ _ _ _ _ _ _ => rfl,
    fun _ _ _ _ _ _ => rfl⟩

/-- C238 is false: weight, orientation and coefficients are not written: kernels that differ in them
are written alike. -/
theorem C238_weight_false {O : Type} (sh : Val → String) (o o' : Option O) (w w' : Option ℝ) (r r' : Option (M3 ℝ))
    (e a s a' s' : Val) :
    ∃ x, write sh (.leaf (.constE e a s) o w r) = .ok x ∧ write sh (.leaf (.constE e a' s') o' w' r') = .ok x :=
  ⟨_, rfl, rfl⟩

/-- C238 is false: an expression with a comparison makes the file unreadable. -/
theorem C238_escape_false {O : Type} (env : Env) (sh : Val → String) (f g : String) (q1 q2 a s : Val) (w : Option ℝ)
    (r : Option (M3 ℝ)) (og : Option O) (h : '<' ∈ f.toList) : ∃ o, write sh (.leaf (.eQ f g q1 q2 a s) og w r) = .ok o ∧
      parseNode (O := O) env o.xml = .error .valueError := by
  refine ⟨_, rfl, ?_⟩
  have hf : decodeText f = .error .valueError := by
    unfold decodeText
    rw [if_pos]
    rw [List.any_eq_true]
    exact ⟨'<', h, rfl⟩
  simp only [parseNode, decode, List.mapM_cons, hf, err_bind]

example : '<' ∈ "if(Q<5,Q,5)".toList := by decide

/-- C238 is false: two kernels S(Q,E) on grids inside a container are written to the same file; the
elements of both name it, and only the second table survives. -/
theorem C238_files_false {O : Type} (sh : Val → String) (h1 h2 : Hist) (qr er : Val) (a : Avg) (w : Option ℝ) (r : Option (M3 ℝ)) :
    ∃ o x, write sh (.comp a w r [.leaf (.sqe .none .none .none (some (.gridSQE h1)) qr er) (none : Option O) none none,
        .leaf (.sqe .none .none .none (some (.gridSQE h2)) qr er) none none none]) = .ok o ∧
      o.xml = .node "compositekernel" [] [x, x] ∧ o.files = [("sqehist.h5", h1), ("sqehist.h5", h2)] :=
  ⟨_, _, rfl, rfl, rfl⟩

/-! ### C239: normalization of tables -/

/-- C239 (partial): a table of `n` times `m` cells whose mean of `I*Q` is off by more than 0.2 and not 0
has mean 1 afterwards.  Missing: smaller deviations stay, see `C239_false`. -/
theorem C239_partial (h : Hist) (b : List ℝ) (n m : ℕ) (hb : h.axes.lookup "Q" = some b) (hs : h.shape = [n, m])
    (hd : |meanIQ (middle b) m h.data - 1| > 2 / 10) (h0 : meanIQ (middle b) m h.data ≠ 0) :
    ∃ h', normalize h = .ok h' ∧ h'.axes = h.axes ∧ h'.shape = h.shape ∧ h'.data.length = h.data.length ∧
      (∃ c, ∀ i, h'.data.getD i 0 = c * h.data.getD i 0) ∧ meanIQ (middle b) m h'.data = 1 := by
  have e1 : h.qAxis = b := by simp [Hist.qAxis, hb]
  have e2 : h.columns = m := by simp [Hist.columns, hs]
  have e3 : middle b = center b := rfl
  rw [e3, ← calcNorm_eq] at hd h0
  refine ⟨{ h with data := h.data.map (· / calcNorm b m h.data) }, ?_, rfl, rfl, by simp,
    ⟨1 / calcNorm b m h.data, fun i => ?_⟩, ?_⟩
  · simp only [normalize, e1, e2, if_pos hd, if_neg h0]
  · simp only [List.getD_eq_getElem?_getD, List.getElem?_map]
    cases h.data[i]? with
    | none => simp
    | some x => simp [div_eq_inv_mul]
  · rw [e3, ← calcNorm_eq, calcNorm_div, div_self h0]

/-- one bin of Q from 0 to 2, two energies: Q is 1 -/
theorem demo_mean (x y : ℝ) : meanIQ (middle [0, 2]) 2 [x, y] = (x + y) / 2 := by
  simp [meanIQ, middle, Finset.sum_range_succ]

/-- values 2 and 4: the mean is 3 -/
example : |meanIQ (middle [0, 2]) 2 [2, 4] - 1| > 2 / 10 ∧ meanIQ (middle [0, 2]) 2 [2, 4] ≠ 0 := by
  rw [demo_mean]
  norm_num

/-- C239 is false: a table with mean 1.1 is left as it is although normalization was asked for. -/
theorem C239_false : ¬ ∀ (h h' : Hist) (b : List ℝ) (n m : ℕ), h.axes.lookup "Q" = some b → h.shape = [n, m] →
    normalize h = .ok h' → meanIQ (middle b) m h'.data = 1 := by
  intro hh
  have e : normalize ⟨[("Q", [0, 2])], [1, 2], [1, 12 / 10]⟩ = .ok ⟨[("Q", [0, 2])], [1, 2], [1, 12 / 10]⟩ := by
    have : calcNorm [0, 2] 2 [1, 12 / 10] = 11 / 10 := by
      rw [calcNorm_eq, show center [0, 2] = middle [0, 2] from rfl, demo_mean]; norm_num
    have h2 : ¬ (|(11 : ℝ) / 10 - 1| > 2 / 10) := by norm_num [abs_lt]
    unfold normalize
    show (if |calcNorm [0, 2] 2 [1, 12 / 10] - 1| > 2 / 10 then _ else _) = _
    rw [this, if_neg h2]
  have := hh _ _ [0, 2] 1 2 (by simp [List.lookup]) rfl e
  rw [demo_mean] at this
  norm_num at this

/-- C239: the request itself is read strictly: a text is accepted exactly if it says yes or no, and
normalization happens exactly for yes. -/
theorem C239_request (t : String) (hne : t ≠ "") (b : Bool) :
    autoNorm (some t) = .ok b ↔ (Yes t ∧ b = true) ∨ (No t ∧ b = false) := by
  have hYN : ∀ s : String, s ∈ ["1", "on", "yes", "true"] → s ∉ ["0", "off", "no", "false"] := by
    intro s hs
    simp only [List.mem_cons, List.not_mem_nil, or_false] at hs
    rcases hs with rfl | rfl | rfl | rfl <;> decide
  have e1 : (lower t ∈ ["on", "yes", "1", "true"]) ↔ lower t ∈ ["1", "on", "yes", "true"] := by
    generalize lower t = s
    simp only [List.mem_cons, List.not_mem_nil, or_false]
    exact ⟨fun h => by rcases h with h | h | h | h <;> simp only [h, true_or, or_true],
      fun h => by rcases h with h | h | h | h <;> simp only [h, true_or, or_true]⟩
  have e2 : (lower t ∈ ["off", "no", "0", "false"]) ↔ lower t ∈ ["0", "off", "no", "false"] := by
    generalize lower t = s
    simp only [List.mem_cons, List.not_mem_nil, or_false]
    exact ⟨fun h => by rcases h with h | h | h | h <;> simp only [h, true_or, or_true],
      fun h => by rcases h with h | h | h | h <;> simp only [h, true_or, or_true]⟩
  have hdisj : Yes t → ¬ No t := hYN _
  unfold autoNorm
  simp only [if_neg hne]
  by_cases h1 : Yes t
  · rw [if_pos (e1.2 h1)]
    have h2 := hdisj h1
    constructor
    · intro h; cases h; exact .inl ⟨h1, rfl⟩
    · rintro (⟨-, rfl⟩ | ⟨h, -⟩)
      · rfl
      · exact absurd h h2
  · rw [if_neg (fun h => h1 (e1.1 h))]
    by_cases h2 : No t
    · rw [if_pos (e2.2 h2)]
      constructor
      · intro h; cases h; exact .inr ⟨h2, rfl⟩
      · rintro (⟨h, -⟩ | ⟨-, rfl⟩)
        · exact absurd h h1
        · rfl
    · rw [if_neg (fun h => h2 (e2.1 h))]
      constructor
      · intro h; cases h
      · rintro (⟨h, -⟩ | ⟨h, -⟩)
        · exact absurd h h1
        · exact absurd h h2

example : autoNorm (some "Off") = .ok false ∧ autoNorm (some "maybe") = .error .valueError := by
  constructor
  · exact (C239_request "Off" (by decide) false).2 (.inr ⟨by decide, rfl⟩)
  · decide

/-! ### C240: tables with bins of equal width -/

/-- C240 (partial): tables over bins of equal width are accepted, with the values in their order,
the first boundary and the width of the bins; the end is moved up by less than a bin.  Missing: bins of
unequal width are not always refused, see `C240_false`. -/
theorem C240_uniform_partial (h : Hist) (a s : ℝ) (n : ℕ) (b t : ℝ) (m : ℕ) (hs : s ≠ 0) (ht : t ≠ 0) (hn : 1 ≤ n) (hm : 1 ≤ m)
    (hq : h.axes.lookup "Q" = some (uniform a s n)) (he : h.axes.lookup "E" = some (uniform b t m))
    (hsh : h.shape = [n, m]) :
    renderFn (.gridSQE h) = .ok (.grid "GridSQE" [(a, a + n * s + 1/2 * s, s), (b, b + m * t + 1/2 * t, t)] h.data) := by
  have f1 := fits_uniform (a := a) (step := s) (n := n) hs (f := 1/2) (pad := 0) (by norm_num) (by norm_num)
  have f2 := fits_uniform (a := b) (step := t) (n := m) ht (f := 1/2) (pad := 0) (by norm_num) (by norm_num)
  simp only [renderFn, axis_uniform hn hq, axis_uniform hm he, ok_bind, makeGrid, hsh, allFit, f1, f2, if_true]
  rfl

/-- C240 (partial): the same for S(Q). -/
theorem C240_sq_partial (h : Hist) (a s : ℝ) (n : ℕ) (hs : s ≠ 0) (hn : 1 ≤ n)
    (hq : h.axes.lookup "Q" = some (uniform a s n)) (hsh : h.shape = [n]) :
    renderFn (.gridSQ h) = .ok (.grid "GridSQ" [(a, a + n * s + 1/100 * s, s)] h.data) := by
  have f1 := fits_uniform (a := a) (step := s) (n := n) hs (f := 1/100) (pad := 1/2) (by norm_num) (by norm_num)
  simp only [renderFn, axis_uniform hn hq, ok_bind, makeGrid, hsh, allFit, f1, if_true]
  rfl

/-- C240 (partial): the same for S(Q vector). -/
theorem C240_svq_partial (h : Hist) (x y z s t u : ℝ) (n m k : ℕ) (hs : s ≠ 0) (ht : t ≠ 0) (hu : u ≠ 0) (hn : 1 ≤ n)
    (hm : 1 ≤ m) (hk : 1 ≤ k) (h1 : h.axes.lookup "Qx" = some (uniform x s n)) (h2 : h.axes.lookup "Qy" = some (uniform y t m))
    (h3 : h.axes.lookup "Qz" = some (uniform z u k)) (hsh : h.shape = [n, m, k]) :
    renderFn (.gridSvQ h) = .ok (.grid "GridSvQ"
      [(x, x + n * s + 1/10 * s, s), (y, y + m * t + 1/10 * t, t), (z, z + k * u + 1/10 * u, u)] h.data) := by
  have f1 := fits_uniform (a := x) (step := s) (n := n) hs (f := 1/10) (pad := 1/2) (by norm_num) (by norm_num)
  have f2 := fits_uniform (a := y) (step := t) (n := m) ht (f := 1/10) (pad := 1/2) (by norm_num) (by norm_num)
  have f3 := fits_uniform (a := z) (step := u) (n := k) hu (f := 1/10) (pad := 1/2) (by norm_num) (by norm_num)
  simp only [renderFn, axis_uniform hn h1, axis_uniform hm h2, axis_uniform hk h3, ok_bind, makeGrid, hsh, allFit, f1, f2, f3, if_true]
  rfl

/-- two bins of Q, one of energy -/
example : renderFn (.gridSQE ⟨[("Q", uniform 0 1 2), ("E", uniform (-5) 10 1)], [2, 1], [3, 4]⟩)
    = .ok (.grid "GridSQE" [(0, 0 + (2 : ℕ) * 1 + 1/2 * 1, 1), (-5, -5 + (1 : ℕ) * 10 + 1/2 * 10, 10)] [3, 4]) :=
  C240_uniform_partial _ 0 1 2 (-5) 10 1 (by norm_num) (by norm_num) (by norm_num) (by norm_num) (by simp [List.lookup])
    (by simp [List.lookup]) rfl

example : renderFn (.gridSQ ⟨[("Q", uniform 1 2 3)], [3], [3, 4, 5]⟩)
    = .ok (.grid "GridSQ" [(1, 1 + (3 : ℕ) * 2 + 1/100 * 2, 2)] [3, 4, 5]) :=
  C240_sq_partial _ 1 2 3 (by norm_num) (by norm_num) (by simp [List.lookup]) rfl
example : renderFn (.gridSvQ ⟨[("Qx", uniform 0 1 2), ("Qy", uniform 0 2 1), ("Qz", uniform 0 3 1)], [2, 1, 1], [3, 4]⟩)
    = .ok (.grid "GridSvQ" [(0, 0 + (2 : ℕ) * 1 + 1/10 * 1, 1), (0, 0 + (1 : ℕ) * 2 + 1/10 * 2, 2),
        (0, 0 + (1 : ℕ) * 3 + 1/10 * 3, 3)] [3, 4]) :=
  C240_svq_partial _ 0 0 0 1 2 3 2 1 1 (by norm_num) (by norm_num) (by norm_num) (by norm_num) (by norm_num) (by norm_num)
    (by simp [List.lookup]) (by simp [List.lookup]) (by simp [List.lookup]) rfl

/-- C240 is false: a table over the bins [0,1] and [1,2.4] is accepted and taken for one over [0,1] and
[1,2]. -/
theorem C240_false : ¬ ∀ (h : Hist) (g : CFn) (bb : List ℝ), renderFn (.gridSQ h) = .ok g → h.axes.lookup "Q" = some bb →
    ∃ a s n, bb = uniform a s n := by
  intro hh
  have e : renderFn (.gridSQ ⟨[("Q", [0, 1, 24/10])], [2], [3, 4]⟩)
      = .ok (.grid "GridSQ" [(0, 24/10 + 1/100 * (1 - 0), 1 - 0)] [3, 4]) := by
    have hf : fits 2 (0, 24/10 + 1/100 * (1 - 0), 1 - 0) (1/2) = .ok true := by
      unfold fits
      rw [if_neg (by norm_num)]
      have : pyInt (((24/10 + 1/100 * (1 - 0) : ℝ) - 0) / (1 - 0) + 1/2) = 2 := by
        unfold pyInt
        rw [if_pos (by norm_num), Int.floor_eq_iff]
        norm_num
      rw [this]
      simp
    have ha : axis ⟨[("Q", [0, 1, 24/10])], [2], [3, 4]⟩ "Q" = .ok (0, 24/10, 1 - 0) := by
      simp [axis, List.lookup]
    simp only [renderFn, ha, ok_bind, makeGrid, allFit, stretch, hf, if_true]
    rfl
  obtain ⟨a, s, n, h⟩ := hh _ _ [0, 1, 24/10] e (by simp [List.lookup])
  have hl : n = 2 := by
    have := congrArg List.length h
    simp only [uniform, List.length_cons, List.length_nil, List.length_map, List.length_range] at this
    omega
  subst hl
  simp only [uniform, List.range_succ_eq_map, List.range_zero] at h
  simp only [List.map_cons, List.map_nil, List.cons.injEq, and_true] at h
  obtain ⟨h0, h1, h2⟩ := h
  norm_num at h0 h1 h2
  rw [← h0] at h1 h2
  linarith

/-! ### C241: every kernel knows its sample -/

/-- C241: after a kernel was attached to a sample, every kernel inside its containers, at any depth,
belongs to that sample; which kernels there are and their order is unchanged. -/
theorem C241_origin {O : Type} (o : O) (k : Kern O) : leaves (setOrigin o k) = (leaves k).map fun x => (x.1, some o) :=
  leaves_setOrigin o k

example : leaves (setOrigin () (.comp .none none none [.comp .none none none [.leaf (.iso .none .none) none none none],
    .leaf (.svq .none .none none) none none none])) = [(.iso .none .none, some ()), (.svq .none .none none, some ())] := by
  simp [C241_origin, leaves, leavesAll]

/-! ### C242: the options of a scatterer -/

/-- C242 (partial): the options of a scatterer reach C++ as they are written, also when they are zero;
those left out are 5, 0 and 1.  Missing: they are lost when a scatterer is written to a file, see
`C242_written_false`. -/
theorem C242_options_partial {O : Type} (env : Env) (U : Units) (S : Sample O) (o : O) {x : Xml} {c : CKern} {w : ℝ} {m : M3 ℝ}
    (hx : Described env U x c w m) {as : List (String × String)} (hc : Clean as) {tw : String} {a b d : ℝ}
    (h1 : as.lookup "mcweights" = some tw) (h1' : tw ≠ "") (h1'' : env.parse tw = .ok (.vec [.num a, .num b, .num d]))
    {n : ℤ} {p f : ℝ}
    (h2 : (as.lookup "max_multiplescattering_loops" = none ∧ n = 5) ∨
      ∃ t, as.lookup "max_multiplescattering_loops" = some t ∧ t ≠ "" ∧ env.int t = .ok n)
    (h3 : (as.lookup "min_neutron_probability" = none ∧ p = 0) ∨
      ∃ t, as.lookup "min_neutron_probability" = some t ∧ t ≠ "" ∧ env.float t = .ok p)
    (h4 : (as.lookup "packing_factor" = none ∧ f = 1) ∨
      ∃ t, as.lookup "packing_factor" = some t ∧ t ≠ "" ∧ env.float t = .ok f) :
    load env U S o (.node "homogeneous_scatterer" as [x]) = .ok ⟨c, [a, b, d], n, p, f, none⟩ := by
  obtain ⟨tag, as', kids⟩ := x
  obtain ⟨k, h5, h6, _, _⟩ := described_parse S o hx
  refine load_file hc ?_ (described_tag hx) h5 h6
  have e2 : option env.int 5 (as.lookup "max_multiplescattering_loops") = .ok n := by
    rcases h2 with ⟨h, rfl⟩ | ⟨t, h, ht, hi⟩
    · simp [option, h]
    · simp [option, h, ht, hi]
  have e3 : option env.float 0 (as.lookup "min_neutron_probability") = .ok p := by
    rcases h3 with ⟨h, rfl⟩ | ⟨t, h, ht, hi⟩
    · simp [option, h]
    · simp [option, h, ht, hi]
  have e4 : option env.float 1 (as.lookup "packing_factor") = .ok f := by
    rcases h4 with ⟨h, rfl⟩ | ⟨t, h, ht, hi⟩
    · simp [option, h]
    · simp [option, h, ht, hi]
  simp [createScat, h1, h1', h1'', ok_bind, e2, e3, e4]

/-- no multiple scattering, packing 0.6 -/
example : load demoEnv demoU demoS () (.node "homogeneous_scatterer"
    [("mcweights", "(0, 1, 0.1)"), ("max_multiplescattering_loops", "0"), ("packing_factor", "0.6")]
    [.node "ConstantEnergyTransferKernel" demoAttrs []])
    = .ok ⟨.call ⟨"ConstantEnergyTransferKernel", [10, 200, 3], [], none⟩, [0, 1, 1/10], 0, 0, 6/10, none⟩ := by
  refine C242_options_partial _ _ _ _ (w := 1) (m := M3.one)
    (.leaf demo_clean demo_written (.inl ⟨by simp [demoAttrs, List.lookup], rfl⟩) (.inl ⟨by simp [demoAttrs, List.lookup], rfl⟩))
    ?_ (tw := "(0, 1, 0.1)") (by simp [List.lookup]) (by simp) (by simp [demoEnv])
    (.inr ⟨"0", by simp [List.lookup], by simp, by simp [demoEnv]⟩) (.inl ⟨by simp [List.lookup], rfl⟩)
    (.inr ⟨"0.6", by simp [List.lookup], by simp, by simp [demoEnv]⟩)
  intro a ha
  simp only [List.mem_cons, List.not_mem_nil, or_false] at ha
  rcases ha with rfl | rfl | rfl <;> decide

/-- C242 is false: a scatterer with packing factor 0.6 and no multiple scattering is read back with the
defaults. -/
theorem C242_written_false : ∃ (env : Env) (sh : Val → String) (h : Scat Unit) (o : Out) (h' : Scat Unit),
    h.packing = 6 / 10 ∧ h.loops = 0 ∧ env.parse (sh h.mcweights) = .ok h.mcweights ∧
    writeScat sh h = .ok o ∧ parseScat env o.xml = .ok h' ∧ h'.mcweights = h.mcweights ∧ h'.packing = 1 ∧ h'.loops = 5 := by
  have hk : parseNode (O := Unit) demoEnv (.node "IsotropicKernel" [] []) = .ok (.kern (.leaf (.iso .none .none) none (some 1) none)) := by
    obtain ⟨o, h1, -, h3⟩ := plain_roundtrip (O := Unit) (env := demoEnv) (sh := fun _ => "") Plain.iso (by simp) (by simp)
    simp only [writeLeaf] at h1
    cases h1
    exact h3
  refine ⟨demoEnv, fun _ => "(0, 1, 0.1)", ⟨.vec [.num 0, .num 1, .num (1/10)], 0, 0, 6/10, none,
    some (.leaf (.iso .none .none) none (some 1) none)⟩, _, _, rfl, rfl, by simp [demoEnv], rfl,
    parseScat_file (h := ⟨.vec [.num 0, .num 1, .num (1/10)], 5, 0, 1, none, none⟩) ?_ ?_ (by simp) hk, rfl, rfl, rfl⟩
  · intro a ha
    simp only [List.mem_cons, List.not_mem_nil, or_false] at ha
    subst ha
    decide
  · simp [createScat, List.lookup, demoEnv, ok_bind, option]

end Verif.KernelXml
