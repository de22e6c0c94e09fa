import Verif.Spec.KernelXml
import Mathlib.Tactic.Ring
import Mathlib.Tactic.Linarith
import Mathlib.Tactic.FieldSimp
import Mathlib.Tactic.NormNum
import Mathlib.Algebra.BigOperators.Ring.Finset
import Mathlib.Algebra.BigOperators.Field
/-!
Lemmas about kernel files.
-/

namespace Verif.KernelXml
open Spec
open Classical

theorem ok_bind {α β : Type} (a : α) (f : α → Except Err β) : (Except.ok a >>= f) = f a := rfl
theorem err_bind {α β : Type} (e : Err) (f : α → Except Err β) : ((Except.error e : Except Err α) >>= f) = .error e := rfl
theorem pure_ok {α : Type} (a : α) : (pure a : Except Err α) = .ok a := rfl

/-! ### units -/

theorem div_worth {u : Qty} (hu : u.v ≠ 0) {s : Sc} {y : ℝ} :
    s.compatible u = true ∧ s.div u = .num y ↔ s = .qty ⟨y * u.v, u.d⟩ := by
  cases s with
  | num x => simp [Sc.compatible]
  | qty q =>
    obtain ⟨v, d⟩ := q
    by_cases h : d = u.d
    · subst h
      simp only [Sc.compatible, Sc.div, decide_true, true_and, if_true, Sc.num.injEq, Sc.qty.injEq, Qty.mk.injEq, and_true]
      rw [div_eq_iff hu]
    · simp [Sc.compatible, Sc.div, h]

theorem plain_iff {s : Sc} : s.plain = true ↔ ∃ y, s = .num y := by
  cases s <;> simp [Sc.plain]

theorem all_plain_iff {l : List Sc} : l.all Sc.plain = true ↔ ∃ ys : List ℝ, l = ys.map .num := by
  induction l with
  | nil => simp
  | cons x l ih =>
    rw [List.all_cons, Bool.and_eq_true, ih, plain_iff]
    constructor
    · rintro ⟨⟨y, rfl⟩, ys, rfl⟩
      exact ⟨y :: ys, rfl⟩
    · rintro ⟨ys, h⟩
      cases ys with
      | nil => simp at h
      | cons y ys =>
        simp only [List.map_cons, List.cons.injEq] at h
        exact ⟨⟨y, h.1⟩, ys, h.2⟩

theorem plain_div {u : Qty} {s : Sc} (h : (s.div u).plain = true) : s.compatible u = true := by
  cases s with
  | num x => simp [Sc.div, Sc.plain] at h
  | qty q =>
    by_cases hq : q.d = u.d
    · simp [Sc.compatible, hq]
    · simp [Sc.div, hq, Sc.plain] at h

theorem map_div_iff {u : Qty} (hu : u.v ≠ 0) {l : List Sc} {ys : List ℝ} :
    l.map (Sc.div u) = ys.map .num ↔ l = ys.map fun y => .qty ⟨y * u.v, u.d⟩ := by
  induction l generalizing ys with
  | nil => cases ys <;> simp
  | cons x l ih =>
    cases ys with
    | nil => simp
    | cons y ys =>
      simp only [List.map_cons, List.cons.injEq]
      rw [ih, ← div_worth hu]
      constructor
      · rintro ⟨h1, h2⟩
        exact ⟨⟨plain_div (by rw [h1]; rfl), h1⟩, h2⟩
      · rintro ⟨⟨_, h1⟩, h2⟩
        exact ⟨h1, h2⟩

theorem num_map_inj {xs ys : List ℝ} (h : xs.map Sc.num = ys.map Sc.num) : xs = ys := by
  induction xs generalizing ys with
  | nil => cases ys <;> simp_all
  | cons x xs ih =>
    cases ys with
    | nil => simp at h
    | cons y ys =>
      simp only [List.map_cons, List.cons.injEq, Sc.num.injEq] at h
      rw [h.1, ih h.2]

theorem removeVector_iff {u : Qty} (hu : u.v ≠ 0) {l v : List Sc} (hl : l.all Sc.plain = false) :
    removeVector l u = .ok v ↔ ∃ ys : List ℝ, v = ys.map .num ∧ l = ys.map fun y => .qty ⟨y * u.v, u.d⟩ := by
  cases l with
  | nil => simp at hl
  | cons x l =>
    show (if (divideVector (x :: l) u).all Sc.plain = true then Except.ok (divideVector (x :: l) u)
      else Except.error Err.valueError) = Except.ok v ↔ _
    by_cases hx : x.compatible u = true
    · rw [show divideVector (x :: l) u = (x :: l).map (Sc.div u) by simp [divideVector, hx]]
      by_cases ha : ((x :: l).map (Sc.div u)).all Sc.plain = true
      · rw [if_pos ha]
        obtain ⟨ys, hys⟩ := all_plain_iff.1 ha
        rw [hys]
        constructor
        · intro h
          cases h
          exact ⟨ys, rfl, (map_div_iff hu).1 hys⟩
        · rintro ⟨zs, rfl, hz⟩
          have := (map_div_iff hu).2 hz
          rw [this] at hys
          rw [num_map_inj hys]
      · rw [if_neg ha]
        constructor
        · intro h; cases h
        · rintro ⟨zs, rfl, hz⟩
          refine absurd (all_plain_iff.2 ⟨zs, (map_div_iff hu).2 hz⟩) ha
    · rw [show divideVector (x :: l) u = x :: l by simp [divideVector, hx], hl]
      constructor
      · intro h; simp at h
      · rintro ⟨zs, rfl, hz⟩
        cases zs with
        | nil => simp at hz
        | cons z zs =>
          simp only [List.map_cons, List.cons.injEq] at hz
          exact absurd ((div_worth hu).2 hz.1).1 hx

theorem removeUnit_sc {u : Qty} (hu : u.v ≠ 0) {s : Sc} {y : ℝ} (h : Worth u s y) :
    removeUnit (.sc s) u = .ok (.sc (.num y)) := by
  rcases h with rfl | rfl
  · simp [removeUnit, Sc.plain]
  · have := (div_worth hu (s := .qty ⟨y * u.v, u.d⟩) (y := y)).2 rfl
    simp [removeUnit, Sc.plain, removeScalar, this.1, this.2, Except.map]

theorem num1_worth {u : Qty} (hu : u.v ≠ 0) {s : Sc} {y : ℝ} (h : Worth u s y) : num1 (.sc s) u = .ok y := by
  simp [num1, removeUnit_sc hu h, ok_bind, asNum]

theorem removePair_num {a s : ℝ} {u : Qty} : removePair (.sc (.num a)) (.sc (.num s)) u = .ok (a, s) := by
  simp [removePair, removeUnit, Sc.plain, ok_bind, pair]

theorem removePair_qty {a s : ℝ} {u : Qty} (hu : u.v ≠ 0) :
    removePair (.sc (.qty ⟨a * u.v, u.d⟩)) (.sc (.qty ⟨s * u.v, u.d⟩)) u = .ok (a, s) := by
  have h := (removeVector_iff hu (l := [.qty ⟨a * u.v, u.d⟩, .qty ⟨s * u.v, u.d⟩]) (v := [.num a, .num s]) rfl).2
    ⟨[a, s], rfl, rfl⟩
  simp [removePair, removeUnit, Sc.plain, h, Except.map, ok_bind, pair]

/-! ### parsing -/

theorem forbidden_false {c : Char} : forbidden c = false ↔ c ≠ '<' ∧ c ≠ '"' ∧ c ≠ '&' := by
  simp [forbidden, and_assoc]

theorem decodeText_clean {t : String} (h : CleanText t) : decodeText t = .ok t := by
  unfold decodeText
  rw [if_neg]
  simp only [List.any_eq_true, not_exists, not_and, Bool.not_eq_true]
  intro c hc
  rw [forbidden_false]
  refine ⟨?_, ?_, ?_⟩ <;> rintro rfl
  · exact h.1 hc
  · exact h.2.1 hc
  · exact h.2.2 hc

theorem decode_clean {as : List (String × String)} (h : Clean as) : decode as = .ok as := by
  unfold decode
  induction as with
  | nil => rfl
  | cons a as ih =>
    have ha : CleanText a.2 := h a (List.mem_cons_self ..)
    have := ih (fun b hb => h b (List.mem_cons_of_mem _ hb))
    rw [List.mapM_cons, decodeText_clean ha, ok_bind, ok_bind, this]
    rfl

theorem weightOf_spec {env : Env} {as : List (String × String)} {w : ℝ} (h : Weight env as w) :
    weightOf env as = .ok w ∧ 0 < w := by
  rcases h with ⟨h, rfl⟩ | ⟨t, h, ht, hf, hw⟩
  · simp [weightOf, h]
  · simp [weightOf, h, ht, hf, ok_bind, not_le.2 hw, hw]

theorem rotOf_spec {env : Env} {as : List (String × String)} {m : M3 ℝ} (h : Turned env as m) :
    ∃ r, rotOf env as = .ok r ∧ r.getD M3.one = m := by
  rcases h with ⟨h, rfl⟩ | ⟨t, h, ht⟩
  · exact ⟨none, by simp [rotOf, h], rfl⟩
  · exact ⟨some m, by simp [rotOf, h, ht, ok_bind], rfl⟩

theorem needVal_given {env : Env} {as : List (String × String)} {key : String} {t : String} {v : Val}
    (h : as.lookup key = some t) (hp : env.parse t = .ok v) : needVal env as key = .ok v := by
  simp [needVal, need, h, ok_bind, hp]

theorem need_given {as : List (String × String)} {key : String} {t : String}
    (h : as.lookup key = some t) : need as key = .ok t := by
  simp [need, h]

theorem coef_given {env : Env} {as : List (String × String)} {key : String} {t : String} {v : Val}
    (h : as.lookup key = some t) (ht : t ≠ "") (hp : env.parse t = .ok v) : coef env as key = .ok v := by
  simp [coef, h, ht, hp]

theorem coefs_given {O : Type} (S : Sample O) (o : Option O) (c : XsCall) {env : Env} {as : List (String × String)} {a s : ℝ}
    (h : Coefs env as a s) : ∃ va vs, coef env as keyAbs = .ok va ∧ coef env as keySc = .ok vs ∧
      coefs S o c va vs perMeter = .ok (a, s) := by
  obtain ⟨ta, ts, va, vs, h1, h2, h3, h4, h5, h6, h7⟩ := h
  refine ⟨.sc va, .sc vs, coef_given h1 h3 h5, coef_given h2 h4 h6, ?_⟩
  simp only [coefs, Val.isNone, Bool.or_self, Bool.false_eq_true, if_false, ok_bind]
  rcases h7 with ⟨rfl, rfl⟩ | ⟨rfl, rfl⟩
  · exact removePair_num
  · have := removePair_qty (a := a) (s := s) (u := perMeter) (by norm_num [perMeter])
    simpa [perMeter] using this

theorem energy_eq (U : Units) : U.energy = meV U := rfl
theorem perAngstrom_eq (U : Units) : U.perAngstrom = invA U := rfl
theorem meV_ne (U : Units) : (meV U).v ≠ 0 := U.meV_pos.ne'
theorem invA_ne (U : Units) : (invA U).v ≠ 0 := (one_div_pos.2 U.angstrom_pos).ne'

/-- the tags of the kernels whose coefficients can be given in the file -/
theorem written_tag {env : Env} {U : Units} {as : List (String × String)} {tag : String} {c : Call CFn}
    (h : Written env U as tag c) : tag ∈ ["IsotropicKernel", "ConstantEnergyTransferKernel", "ConstantQEKernel",
      "ConstantvQEKernel", "E_Q_Kernel", "Broadened_E_Q_Kernel", "LorentzianBroadened_E_Q_Kernel", "E_vQ_Kernel"] := by
  cases h <;> simp

theorem written_leaf {O : Type} (S : Sample O) (o : Option O) {env : Env} {U : Units} {as : List (String × String)}
    {tag : String} {c : Call CFn} (h : Written env U as tag c) :
    ∃ l, createLeaf env tag as = .ok l ∧ renderLeaf U S o l = .ok c := by
  cases h with
  | iso h =>
    obtain ⟨va, vs, h1, h2, h3⟩ := coefs_given S o .dflt h
    exact ⟨.iso va vs, by simp [createLeaf, h1, h2, ok_bind], by simp [renderLeaf, h3, ok_bind]⟩
  | constE h he =>
    obtain ⟨va, vs, h1, h2, h3⟩ := coefs_given S o .coeffs h
    obtain ⟨t, x, k1, _, k3, k4⟩ := he
    exact ⟨.constE (.sc x) va vs, by simp [createLeaf, h1, h2, ok_bind, needVal_given k1 k3],
      by simp [renderLeaf, h3, ok_bind, energy_eq, num1_worth (meV_ne U) k4]⟩
  | constQE h he hq =>
    obtain ⟨va, vs, h1, h2, h3⟩ := coefs_given S o .coeffs h
    obtain ⟨t, x, k1, _, k3, k4⟩ := he
    obtain ⟨t', x', j1, _, j3, j4⟩ := hq
    exact ⟨.constQE (.sc x') (.sc x) va vs,
      by simp [createLeaf, h1, h2, ok_bind, needVal_given k1 k3, needVal_given j1 j3],
      by simp [renderLeaf, h3, ok_bind, energy_eq, perAngstrom_eq, num1_worth (meV_ne U) k4,
        removeUnit_sc (invA_ne U) j4, asNum]⟩
  | constvQE h he hde hq hv =>
    obtain ⟨va, vs, h1, h2, h3⟩ := coefs_given S o .coeffs h
    obtain ⟨t, x, k1, _, k3, k4⟩ := he
    obtain ⟨t', x', j1, _, j3, j4⟩ := hde
    exact ⟨_, by simp [createLeaf, h1, h2, ok_bind, needVal_given k1 k3, needVal_given j1 j3, needVal_given hq hv]; rfl,
      by simp [renderLeaf, h3, ok_bind, energy_eq, num1_worth (meV_ne U) k4,
        num1_worth (meV_ne U) j4, coords]⟩
  | eQ h hf hg h1' h2' =>
    obtain ⟨va, vs, h1, h2, h3⟩ := coefs_given S o .density h
    obtain ⟨t, x, k1, _, k3, k4⟩ := h1'
    obtain ⟨t', x', j1, _, j3, j4⟩ := h2'
    exact ⟨_, by simp [createLeaf, h1, h2, ok_bind, needVal_given k1 k3, needVal_given j1 j3, need_given hf, need_given hg]; rfl,
      by simp [renderLeaf, h3, ok_bind, perAngstrom_eq, num1_worth (invA_ne U) k4, num1_worth (invA_ne U) j4]⟩
  | broad h hf hg hk h1' h2' =>
    obtain ⟨va, vs, h1, h2, h3⟩ := coefs_given S o .density h
    obtain ⟨t, x, k1, _, k3, k4⟩ := h1'
    obtain ⟨t', x', j1, _, j3, j4⟩ := h2'
    exact ⟨_, by simp [createLeaf, h1, h2, ok_bind, needVal_given k1 k3, needVal_given j1 j3, need_given hf, need_given hg,
        need_given hk]; rfl,
      by simp [renderLeaf, h3, ok_bind, perAngstrom_eq, num1_worth (invA_ne U) k4, num1_worth (invA_ne U) j4]⟩
  | lor h hf hg hk h1' h2' =>
    obtain ⟨va, vs, h1, h2, h3⟩ := coefs_given S o .density h
    obtain ⟨t, x, k1, _, k3, k4⟩ := h1'
    obtain ⟨t', x', j1, _, j3, j4⟩ := h2'
    exact ⟨_, by simp [createLeaf, h1, h2, ok_bind, needVal_given k1 k3, needVal_given j1 j3, need_given hf, need_given hg,
        need_given hk]; rfl,
      by simp [renderLeaf, h3, ok_bind, perAngstrom_eq, num1_worth (invA_ne U) k4, num1_worth (invA_ne U) j4]⟩
  | evQ h hf hg he =>
    obtain ⟨va, vs, h1, h2, h3⟩ := coefs_given S o .density h
    obtain ⟨t, x, k1, _, k3, k4⟩ := he
    exact ⟨_, by simp [createLeaf, h1, h2, ok_bind, needVal_given k1 k3, need_given hf, need_given hg]; rfl,
      by simp [renderLeaf, h3, ok_bind, energy_eq, num1_worth (meV_ne U) k4]⟩

theorem create_leaf {O : Type} {env : Env} {tag : String} {as : List (String × String)}
    (ht : tag ∉ ["KernelContainer", "compositekernel", "SQE_fromexpression", "SQ_fromexpression", "GridSQE", "GridSQ",
      "GridSvQ"]) : create (O := O) env tag as = (do
    let l ← createLeaf env tag as
    let w ← weightOf env as
    let r ← rotOf env as
    .ok (.kern (.leaf l none (some w) r))) := by
  simp only [List.mem_cons, List.not_mem_nil, or_false, not_or] at ht
  obtain ⟨h1, h2, h3, h4, h5, h6, h7⟩ := ht
  unfold create
  rw [if_neg h1, if_neg h2, if_neg h3, if_neg h4, if_neg h5, if_neg h6, if_neg h7]

theorem written_create {O : Type} {env : Env} {U : Units} {as : List (String × String)}
    {tag : String} {c : Call CFn} (h : Written env U as tag c) : create (O := O) env tag as = (do
    let l ← createLeaf env tag as
    let w ← weightOf env as
    let r ← rotOf env as
    .ok (.kern (.leaf l none (some w) r))) := by
  refine create_leaf ?_
  have := written_tag h
  simp only [List.mem_cons, List.not_mem_nil, or_false] at this ⊢
  rcases this with rfl | rfl | rfl | rfl | rfl | rfl | rfl | rfl <;> simp

theorem avgOf_spec {as : List (String × String)} {b : Bool} (h : Average as b) : caverage (avgOf as) = .ok b := by
  rcases h with ⟨h, rfl⟩ | ⟨t, h, hy⟩
  · simp [avgOf, h, caverage]
  · have hne : t ≠ "" := by
      rintro rfl
      rcases hy with ⟨hy, _⟩ | ⟨hy, _⟩ <;> simp [Yes, No] at hy
    simp only [avgOf, h, if_neg hne, caverage, Except.ok.injEq]
    rcases hy with ⟨hy, rfl⟩ | ⟨hy, rfl⟩
    · simpa [lower, Yes] using hy
    · simp only [decide_eq_false_iff_not]
      intro hc
      simp only [No, List.mem_cons, List.not_mem_nil, or_false] at hy
      unfold lower at hc
      rcases hy with hy | hy | hy | hy <;> rw [hy] at hc <;> simp at hc

theorem knownKeys_spec {as : List (String × String)} (h : ∀ a ∈ as, a.1 = "average" ∨ a.1 = "weight") :
    knownKeys as = true ∧ as.lookup "orientation" = none := by
  constructor
  · simpa [knownKeys, List.all_eq_true] using h
  · rw [List.lookup_eq_none_iff]
    intro p hp
    rcases h p hp with h | h <;> simp [h]

theorem comp_append {O : Type} (o : O) (l1 l2 : List (Kern O)) : setOrigins o (l1 ++ l2) = setOrigins o l1 ++ setOrigins o l2 := by
  induction l1 with
  | nil => rfl
  | cons k l ih => simp [setOrigins, ih]

theorem setOrigin_weight {O : Type} (o : O) (k : Kern O) : (setOrigin o k).weight = k.weight := by
  cases k <;> simp [setOrigin, Kern.weight]

theorem setOrigin_rot {O : Type} (o : O) (k : Kern O) : (setOrigin o k).rot = k.rot := by
  cases k <;> simp [setOrigin, Kern.rot]

mutual
theorem described_parse {O : Type} (S : Sample O) (o : O) {env : Env} {U : Units} {x : Xml} {c : CKern} {w : ℝ} {m : M3 ℝ}
    (h : Described env U x c w m) : ∃ k : Kern O, parseNode env x = .ok (.kern k) ∧
      engine U S (setOrigin o k) = .ok c ∧ cweight k.weight = w ∧ k.rot.getD M3.one = m := by
  cases h with
  | leaf hc hw hwt ht =>
    rename_i tag as call
    obtain ⟨l, h1, h2⟩ := written_leaf S (some o) hw
    obtain ⟨h3, h4⟩ := weightOf_spec hwt
    obtain ⟨r, h5, h6⟩ := rotOf_spec ht
    refine ⟨.leaf l none (some w) r, ?_, ?_, ?_, h6⟩
    · simp only [parseNode, decode_clean hc, ok_bind, written_create hw, h1, h3, h5, parseKids]
    · simp [setOrigin, engine, h2, ok_bind]
    · simp [Kern.weight, cweight, h4.ne']
  | box hc hk hwt ha hd =>
    rename_i as kids ks ws ms b
    obtain ⟨h3, h4⟩ := weightOf_spec hwt
    obtain ⟨h7, h8⟩ := knownKeys_spec hk
    obtain ⟨es, h9, h10, h11, h12⟩ := described_parseAll S o hd (avgOf as) (some w) none
    refine ⟨.comp (avgOf as) (some w) none es, ?_, ?_, ?_, rfl⟩
    · have hcr : create (O := O) env "KernelContainer" as = .ok (.kern (.comp (avgOf as) (some w) none [])) := by
        have hr : rotOf env as = .ok none := by simp [rotOf, h8]
        simp [create, h7, h3, hr, ok_bind]
      have := h9 []
      rw [List.nil_append] at this
      simp only [parseNode, decode_clean hc, ok_bind, hcr, this]
    · have e1 : (setOrigins o es).map (fun e => cweight e.weight) = ws := h11
      have e2 : (setOrigins o es).map (fun e => e.rot.getD M3.one) = ms := h12
      simp only [setOrigin, engine, h10, ok_bind, avgOf_spec ha, e1, e2]
    · simp [Kern.weight, cweight, h4.ne']

theorem described_parseAll {O : Type} (S : Sample O) (o : O) {env : Env} {U : Units} {xs : List Xml} {cs : List CKern}
    {ws : List ℝ} {ms : List (M3 ℝ)} (h : DescribedAll env U xs cs ws ms) (a : Avg) (w : Option ℝ) (r : Option (M3 ℝ)) :
    ∃ es : List (Kern O), (∀ es', parseKids env "KernelContainer" (.kern (.comp a w r es')) xs
        = .ok (.kern (.comp a w r (es' ++ es)))) ∧
      engineAll U S (setOrigins o es) = .ok cs ∧
      (setOrigins o es).map (fun e => cweight e.weight) = ws ∧
      (setOrigins o es).map (fun e => e.rot.getD M3.one) = ms := by
  cases h with
  | nil => exact ⟨[], by simp [parseKids], rfl, rfl, rfl⟩
  | cons h hs =>
    obtain ⟨k, h1, h2, h3, h4⟩ := described_parse S o h
    obtain ⟨es, h5, h6, h7, h8⟩ := described_parseAll S o hs a w r
    refine ⟨k :: es, ?_, ?_, ?_, ?_⟩
    · intro es'
      have hn : notify (O := O) "KernelContainer" (.kern (.comp a w r es')) (.kern k)
          = .ok (.kern (.comp a w r (es' ++ [k]))) := by simp [notify]
      simp only [parseKids, h1, ok_bind, hn, h5 (es' ++ [k]), List.append_assoc, List.singleton_append]
    · simp only [setOrigins, engineAll, h2, ok_bind, h6]
    · simp only [setOrigins, List.map_cons, h7, setOrigin_weight, h3]
    · simp only [setOrigins, List.map_cons, h8, setOrigin_rot, h4]
end

/-! ### sample -/

mutual
theorem leaves_setOrigin {O : Type} (o : O) (k : Kern O) :
    leaves (setOrigin o k) = (leaves k).map fun x => (x.1, some o) := by
  cases k with
  | leaf l _ w r => simp [setOrigin, leaves]
  | comp a w r es => simp [setOrigin, leaves, leavesAll_setOrigins o es]
theorem leavesAll_setOrigins {O : Type} (o : O) (ks : List (Kern O)) :
    leavesAll (setOrigins o ks) = (leavesAll ks).map fun x => (x.1, some o) := by
  cases ks with
  | nil => rfl
  | cons k ks => simp [setOrigins, leavesAll, leaves_setOrigin o k, leavesAll_setOrigins o ks]
end

/-! ### writing -/

theorem clean_of {l : List (String × String)} (h : ∀ a ∈ l, CleanText a.2) : Clean l := h

theorem weightOf_none {env : Env} {as : List (String × String)} (h : as.lookup "weight" = none) :
    weightOf env as = .ok 1 := by simp [weightOf, h]

theorem rotOf_none {env : Env} {as : List (String × String)} (h : as.lookup "orientation" = none) :
    rotOf env as = .ok none := by simp [rotOf, h]

theorem coef_none {env : Env} {as : List (String × String)} {key : String} (h : as.lookup key = none) :
    coef env as key = .ok .none := by simp [coef, h]

theorem plain_roundtrip {O : Type} {env : Env} {sh : Val → String} {l : Leaf} {vs : List Val} {ts : List String}
    (h : Plain l vs ts) (hv : ∀ v ∈ vs, Prints env sh v) (ht : ∀ t ∈ ts, CleanText t) :
    ∃ o, writeLeaf sh l = .ok o ∧ o.files = [] ∧
      parseNode (O := O) env o.xml = .ok (.kern (.leaf l none (some 1) none)) := by
  cases h with
  | iso =>
    refine ⟨_, rfl, rfl, ?_⟩
    simp only [parseNode, decode_clean (as := []) (by intro a ha; cases ha), ok_bind]
    rw [create_leaf (by simp)]
    simp [createLeaf, coef, weightOf, rotOf, ok_bind, parseKids]
  | constE =>
    rename_i e
    have he := hv e (by simp)
    refine ⟨_, rfl, rfl, ?_⟩
    simp only [parseNode]
    rw [decode_clean (by intro a ha; simp only [List.mem_cons, List.not_mem_nil, or_false] at ha; subst ha; exact he.1), ok_bind,
      create_leaf (by simp)]
    simp [createLeaf, coef, needVal, need, weightOf, rotOf, ok_bind, parseKids, he.2, List.lookup, keyAbs, keySc]
  | constQE =>
    rename_i q e
    have hq := hv q (by simp)
    have he := hv e (by simp)
    refine ⟨_, rfl, rfl, ?_⟩
    simp only [parseNode]
    rw [decode_clean (by
      intro a ha; simp only [List.mem_cons, List.not_mem_nil, or_false] at ha
      rcases ha with rfl | rfl
      exacts [hq.1, he.1]), ok_bind, create_leaf (by simp)]
    simp [createLeaf, coef, needVal, need, weightOf, rotOf, ok_bind, parseKids, he.2, hq.2, List.lookup, keyAbs, keySc]
  | constvQE =>
    rename_i q e de
    have hq := hv q (by simp)
    have he := hv e (by simp)
    have hd := hv de (by simp)
    refine ⟨_, rfl, rfl, ?_⟩
    simp only [parseNode]
    rw [decode_clean (by
      intro a ha; simp only [List.mem_cons, List.not_mem_nil, or_false] at ha
      rcases ha with rfl | rfl | rfl
      exacts [hq.1, he.1, hd.1]), ok_bind, create_leaf (by simp)]
    simp [createLeaf, coef, needVal, need, weightOf, rotOf, ok_bind, parseKids, he.2, hq.2, hd.2, List.lookup, keyAbs, keySc]
  | eQ =>
    rename_i f g q1 q2
    have h1 := hv q1 (by simp)
    have h2 := hv q2 (by simp)
    have hf := ht f (by simp)
    have hg := ht g (by simp)
    refine ⟨_, rfl, rfl, ?_⟩
    simp only [parseNode]
    rw [decode_clean (by
      intro a ha; simp only [List.mem_cons, List.not_mem_nil, or_false] at ha
      rcases ha with rfl | rfl | rfl | rfl
      exacts [hf, hg, h1.1, h2.1]), ok_bind, create_leaf (by simp)]
    simp [createLeaf, coef, needVal, need, weightOf, rotOf, ok_bind, parseKids, h1.2, h2.2, List.lookup, keyAbs, keySc]
  | broad =>
    rename_i f g k q1 q2
    have h1 := hv q1 (by simp)
    have h2 := hv q2 (by simp)
    have hf := ht f (by simp)
    have hg := ht g (by simp)
    have hk := ht k (by simp)
    refine ⟨_, rfl, rfl, ?_⟩
    simp only [parseNode]
    rw [decode_clean (by
      intro a ha; simp only [List.mem_cons, List.not_mem_nil, or_false] at ha
      rcases ha with rfl | rfl | rfl | rfl | rfl
      exacts [hf, hg, hk, h1.1, h2.1]), ok_bind, create_leaf (by simp)]
    simp [createLeaf, coef, needVal, need, weightOf, rotOf, ok_bind, parseKids, h1.2, h2.2, List.lookup, keyAbs, keySc]

/-! ### normalization -/

theorem calcNorm_eq (bb : List ℝ) (n : ℕ) (data : List ℝ) : calcNorm bb n data = meanIQ (center bb) n data := rfl

theorem calcNorm_div (bb : List ℝ) (n : ℕ) (data : List ℝ) (c : ℝ) :
    calcNorm bb n (data.map (· / c)) = calcNorm bb n data / c := by
  unfold calcNorm
  rw [List.length_map]
  have e : ∑ j ∈ Finset.range data.length, (data.map (· / c)).getD j 0 * center bb (j / n)
      = (∑ j ∈ Finset.range data.length, data.getD j 0 * center bb (j / n)) / c := by
    rw [Finset.sum_div]
    refine Finset.sum_congr rfl fun j hj => ?_
    have hj' : j < data.length := Finset.mem_range.1 hj
    have e1 : (data.map (· / c)).getD j 0 = data[j] / c := by
      rw [List.getD_eq_getElem?_getD, List.getElem?_eq_getElem (by simpa using hj'), List.getElem_map]; rfl
    have e2 : data.getD j 0 = data[j] := by
      rw [List.getD_eq_getElem?_getD, List.getElem?_eq_getElem hj']; rfl
    rw [e1, e2]
    ring
  rw [e]
  ring

/-! ### grids -/

theorem axis_uniform {h : Hist} {name : String} {a step : ℝ} {n : ℕ} (hn : 1 ≤ n)
    (hh : h.axes.lookup name = some (uniform a step n)) : axis h name = .ok (a, a + n * step, step) := by
  obtain ⟨m, rfl⟩ : ∃ m, n = m + 1 := ⟨n - 1, by omega⟩
  have e : uniform a step (m + 1) = a :: (a + step) :: (List.range m).map (fun i : ℕ => a + ((i : ℝ) + 1 + 1) * step) := by
    unfold uniform
    rw [List.range_succ_eq_map, List.range_succ_eq_map]
    simp [Function.comp_def]
  have hl : (uniform a step (m + 1)).getLastD 0 = a + ((m + 1 : ℕ) : ℝ) * step := by
    unfold uniform
    rw [List.range_succ]
    simp
  unfold axis
  rw [hh]
  simp only
  rw [hl, e]
  simp

theorem fits_uniform {a step : ℝ} {n : ℕ} (hs : step ≠ 0) {f pad : ℝ} (h0 : 0 ≤ f + pad) (h1 : f + pad < 1) :
    fits n (stretch f (a, a + n * step, step)) pad = .ok true := by
  unfold fits stretch
  simp only
  rw [if_neg hs]
  have e : (a + n * step + f * step - a) / step + pad = (n : ℝ) + (f + pad) := by
    field_simp
    ring
  rw [e]
  have hp : (0 : ℝ) ≤ n + (f + pad) := add_nonneg (Nat.cast_nonneg _) h0
  have : pyInt ((n : ℝ) + (f + pad)) = n := by
    unfold pyInt
    rw [if_pos hp, Int.floor_eq_iff]
    constructor
    · simp only [Int.cast_natCast]; linarith
    · simp only [Int.cast_natCast]; linarith
  rw [this]
  simp

end Verif.KernelXml

namespace Verif.KernelXml
open Spec
open Classical

/-! ### whole files -/

/-- a scatterer file with one kernel -/
theorem parseScat_file {O : Type} {env : Env} {as as' : List (String × String)} {tag : String} {kids : List Xml} {k : Kern O}
    {h : Scat O} (hc : Clean as) (hs : createScat env as = .ok h)
    (ht : tag ≠ "InverseVelocityAbsorption") (hk : parseNode env (.node tag as' kids) = .ok (.kern k)) :
    parseScat env (.node "homogeneous_scatterer" as [.node tag as' kids]) = .ok { h with kernel := some k } := by
  simp only [parseScat, decode_clean hc, ok_bind, hs, scatKids, if_neg ht, hk, if_true]

theorem createScat_default {O : Type} (env : Env) :
    createScat (O := O) env [] = .ok ⟨defaultWeights, 5, 0, 1, none, none⟩ := by
  simp [createScat, defaultWeights, option, ok_bind]

theorem load_file {O : Type} {env : Env} {U : Units} {S : Sample O} {o : O} {as as' : List (String × String)} {tag : String}
    {kids : List Xml} {k : Kern O} {c : CKern} {a b d p f : ℝ} {n : ℤ} (hc : Clean as)
    (hs : createScat env as = .ok (⟨.vec [.num a, .num b, .num d], n, p, f, none, none⟩ : Scat O))
    (ht : tag ≠ "InverseVelocityAbsorption") (hk : parseNode env (.node tag as' kids) = .ok (.kern k))
    (he : engine U S (setOrigin o k) = .ok c) :
    load env U S o (.node "homogeneous_scatterer" as [.node tag as' kids]) = .ok ⟨c, [a, b, d], n, p, f, none⟩ := by
  simp only [load, parseScat_file hc hs ht hk, ok_bind, engineScat, Option.map_some, he, coords]
  rfl

theorem clean_nil : Clean [] := by intro a ha; cases ha

theorem load_default {O : Type} {env : Env} {U : Units} {S : Sample O} {o : O} {as' : List (String × String)} {tag : String}
    {kids : List Xml} {k : Kern O} {c : CKern}
    (ht : tag ≠ "InverseVelocityAbsorption") (hk : parseNode env (.node tag as' kids) = .ok (.kern k))
    (he : engine U S (setOrigin o k) = .ok c) :
    load env U S o (.node "homogeneous_scatterer" [] [.node tag as' kids]) = .ok ⟨c, [0, 1, 5/100], 5, 0, 1, none⟩ :=
  load_file clean_nil (createScat_default env) ht hk he

theorem described_tag {env : Env} {U : Units} {tag : String} {as : List (String × String)} {kids : List Xml} {c : CKern} {w : ℝ}
    {m : M3 ℝ} (h : Described env U (.node tag as kids) c w m) : tag ≠ "InverseVelocityAbsorption" := by
  cases h with
  | leaf _ hw _ _ => cases hw <;> simp
  | box => simp

theorem writeAll_cons {O : Type} {sh : Val → String} {k : Kern O} {ks : List (Kern O)} {os : List Out}
    (h : writeAll sh (k :: ks) = .ok os) : ∃ o os', write sh k = .ok o ∧ os = o :: os' := by
  simp only [writeAll] at h
  cases hk : write sh k with
  | error e => rw [hk, err_bind] at h; cases h
  | ok o =>
    rw [hk, ok_bind] at h
    cases hks : writeAll sh ks with
    | error e => rw [hks, err_bind] at h; cases h
    | ok os' =>
      rw [hks, ok_bind] at h
      cases h
      exact ⟨o, os', rfl, rfl⟩

end Verif.KernelXml
