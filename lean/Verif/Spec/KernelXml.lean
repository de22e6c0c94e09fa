import Verif.Model.KernelXml
/-!
What a user expects of kernel files, stated without the functions of the parser and the renderers.
-/

namespace Verif.KernelXml.Spec
open Verif.KernelXml
noncomputable section

/-- `s` stands for `y` times the unit `u`: either the bare number `y`, or a quantity of that size -/
def Worth (u : Qty) (s : Sc) (y : ℝ) : Prop := s = .num y ∨ s = .qty ⟨y * u.v, u.d⟩

/-- no attribute contains a character that has to be escaped -/
def Clean (as : List (String × String)) : Prop :=
  ∀ a ∈ as, '<' ∉ a.2.toList ∧ '"' ∉ a.2.toList ∧ '&' ∉ a.2.toList

/-- the attribute `key` is there and stands for `y` times the unit `u` -/
def Given (env : Env) (as : List (String × String)) (key : String) (u : Qty) (y : ℝ) : Prop :=
  ∃ t s, as.lookup key = some t ∧ t ≠ "" ∧ env.parse t = .ok (.sc s) ∧ Worth u s y

/-- both coefficients are there, in the same style (both bare numbers or both with units), and stand
for `a` and `s` per metre -/
def Coefs (env : Env) (as : List (String × String)) (a s : ℝ) : Prop :=
  ∃ ta ts va vs, as.lookup "absorption_coefficient" = some ta ∧ as.lookup "scattering_coefficient" = some ts ∧
    ta ≠ "" ∧ ts ≠ "" ∧ env.parse ta = .ok (.sc va) ∧ env.parse ts = .ok (.sc vs) ∧
    ((va = .num a ∧ vs = .num s) ∨
     (va = .qty ⟨a, ⟨0, -1, 0⟩⟩ ∧ vs = .qty ⟨s, ⟨0, -1, 0⟩⟩))

/-- millielectronvolt -/
def meV (U : Units) : Qty := ⟨U.meV, ⟨1, 2, -2⟩⟩
/-- reciprocal ångström -/
def invA (U : Units) : Qty := ⟨1 / U.angstrom, ⟨0, -1, 0⟩⟩

/-- an element with a kernel and the C++ object it asks for: energies in meV, momentum transfers in
reciprocal ångström, coefficients per metre, in the order of the C++ constructors -/
inductive Written (env : Env) (U : Units) (as : List (String × String)) : String → Call CFn → Prop
  | iso {a s} : Coefs env as a s → Written env U as "IsotropicKernel" ⟨"IsotropicKernel", [a, s], [], none⟩
  | constE {e a s} : Coefs env as a s → Given env as "energy-transfer" (meV U) e →
      Written env U as "ConstantEnergyTransferKernel" ⟨"ConstantEnergyTransferKernel", [e, a, s], [], none⟩
  | constQE {q e a s} : Coefs env as a s → Given env as "energy-transfer" (meV U) e →
      Given env as "momentum-transfer" (invA U) q →
      Written env U as "ConstantQEKernel" ⟨"ConstantQEKernel", [q, e, a, s], [], none⟩
  | constvQE {x y z e de a s t} : Coefs env as a s → Given env as "energy-transfer" (meV U) e →
      Given env as "dE" (meV U) de → as.lookup "momentum-transfer" = some t →
      env.parse t = .ok (.vec [.num x, .num y, .num z]) →
      Written env U as "ConstantvQEKernel" ⟨"ConstantvQEKernel", [x, y, z, e, de, a, s], [], none⟩
  | eQ {f g q1 q2 a s} : Coefs env as a s → as.lookup "E_Q" = some f → as.lookup "S_Q" = some g →
      Given env as "Qmin" (invA U) q1 → Given env as "Qmax" (invA U) q2 →
      Written env U as "E_Q_Kernel" ⟨"E_Q_Kernel", [q1, q2, a, s], [f, g], none⟩
  | broad {f g k q1 q2 a s} : Coefs env as a s → as.lookup "E_Q" = some f → as.lookup "S_Q" = some g →
      as.lookup "sigma_Q" = some k → Given env as "Qmin" (invA U) q1 → Given env as "Qmax" (invA U) q2 →
      Written env U as "Broadened_E_Q_Kernel" ⟨"Broadened_E_Q_Kernel", [q1, q2, a, s], [f, g, k], none⟩
  | lor {f g k q1 q2 a s} : Coefs env as a s → as.lookup "E_Q" = some f → as.lookup "S_Q" = some g →
      as.lookup "gamma_Q" = some k → Given env as "Qmin" (invA U) q1 → Given env as "Qmax" (invA U) q2 →
      Written env U as "LorentzianBroadened_E_Q_Kernel"
        ⟨"LorentzianBroadened_E_Q_Kernel", [q1, q2, a, s], [f, g, k], none⟩
  | evQ {f g emax a s} : Coefs env as a s → as.lookup "E_Q" = some f → as.lookup "S_Q" = some g →
      Given env as "Emax" (meV U) emax →
      Written env U as "E_vQ_Kernel" ⟨"E_vQ_Kernel", [emax, a, s], [f, g], none⟩

/-- the weight of an element: 1, or the positive number of the attribute `weight` -/
def Weight (env : Env) (as : List (String × String)) (w : ℝ) : Prop :=
  (as.lookup "weight" = none ∧ w = 1) ∨
    ∃ t, as.lookup "weight" = some t ∧ t ≠ "" ∧ env.float t = .ok w ∧ 0 < w

/-- the orientation of an element: none, or the matrix of the attribute `orientation` -/
def Turned (env : Env) (as : List (String × String)) (m : M3 ℝ) : Prop :=
  (as.lookup "orientation" = none ∧ m = M3.one) ∨
    ∃ t, as.lookup "orientation" = some t ∧ env.rot t = .ok m

/-- the ways to say yes -/
def Yes (t : String) : Prop :=
  String.ofList (t.toList.map Char.toLower) ∈ ["1", "on", "yes", "true"]
/-- the ways to say no -/
def No (t : String) : Prop :=
  String.ofList (t.toList.map Char.toLower) ∈ ["0", "off", "no", "false"]

/-- the attribute `average` says `b` -/
def Average (as : List (String × String)) (b : Bool) : Prop :=
  (as.lookup "average" = none ∧ b = false) ∨
    ∃ t, as.lookup "average" = some t ∧ ((Yes t ∧ b = true) ∨ (No t ∧ b = false))

mutual
/-- an element, the C++ kernel it asks for, and its weight and orientation within a container -/
inductive Described (env : Env) (U : Units) : Xml → CKern → ℝ → M3 ℝ → Prop
  | leaf {tag as c w m} : Clean as → Written env U as tag c → Weight env as w → Turned env as m →
      Described env U (.node tag as []) (.call c) w m
  | box {as kids ks ws ms b w} : Clean as → (∀ a ∈ as, a.1 = "average" ∨ a.1 = "weight") → Weight env as w →
      Average as b → DescribedAll env U kids ks ws ms →
      Described env U (.node "KernelContainer" as kids) (.comp ks ws ms b) w M3.one
/-- the same for the elements of a container, in their order -/
inductive DescribedAll (env : Env) (U : Units) : List Xml → List CKern → List ℝ → List (M3 ℝ) → Prop
  | nil : DescribedAll env U [] [] [] []
  | cons {x k w m xs ks ws ms} : Described env U x k w m → DescribedAll env U xs ks ws ms →
      DescribedAll env U (x :: xs) (k :: ks) (w :: ws) (m :: ms)
end

mutual
/-- the kernels inside a kernel that are no containers, with the sample they belong to -/
def leaves {O : Type} : Kern O → List (Leaf × Option O)
  | .leaf l o _ _ => [(l, o)]
  | .comp _ _ _ es => leavesAll es
/-- the same for several kernels -/
def leavesAll {O : Type} : List (Kern O) → List (Leaf × Option O)
  | [] => []
  | k :: ks => leaves k ++ leavesAll ks
end

/-- kernels without coefficients of the classes that survive writing and reading, with the values
and the texts that are written -/
inductive Plain : Leaf → List Val → List String → Prop
  | iso : Plain (.iso .none .none) [] []
  | constE {e} : Plain (.constE e .none .none) [e] []
  | constQE {q e} : Plain (.constQE q e .none .none) [q, e] []
  | constvQE {q e de} : Plain (.constvQE q e de .none .none) [q, e, de] []
  | eQ {f g q1 q2} : Plain (.eQ f g q1 q2 .none .none) [q1, q2] [f, g]
  | broad {f g k q1 q2} : Plain (.broad f g k q1 q2 .none .none) [q1, q2] [f, g, k]

/-- a text that needs no escaping -/
def CleanText (t : String) : Prop := '<' ∉ t.toList ∧ '"' ∉ t.toList ∧ '&' ∉ t.toList

/-- the value `v` is printed as a text which the parser reads as `v` again -/
def Prints (env : Env) (sh : Val → String) (v : Val) : Prop := CleanText (sh v) ∧ env.parse (sh v) = .ok v

/-- the middle of the bin `i` with the boundaries `b` -/
noncomputable def middle (b : List ℝ) (i : ℕ) : ℝ := (b.getD i 0 + b.getD (i + 1) 0) / 2

/-- the mean of `I*Q` of a histogram S(Q,E) with one row of energies per value of Q; `q i` is the
middle of the bin `i` -/
def meanIQ (q : ℕ → ℝ) (n : ℕ) (data : List ℝ) : ℝ :=
  (∑ j ∈ Finset.range data.length, data.getD j 0 * q (j / n)) / data.length

/-- boundaries of `n` bins of the same width -/
def uniform (a step : ℝ) (n : ℕ) : List ℝ := (List.range (n + 1)).map fun (i : ℕ) => a + (i : ℝ) * step

end
end Verif.KernelXml.Spec
