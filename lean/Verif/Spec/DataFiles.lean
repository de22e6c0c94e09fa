import Verif.Model.DataFiles
/-!
Specification of the files with reflections and densities of states: lines of words, comments that declare what the columns are.
-/

namespace Verif.DataFiles.Spec
open DataFiles

/-- the text consists of these words with white space in between -/
inductive Spells : Text → List Text → Prop
  | blank {s : Text} (h : ∀ c ∈ s, c.isWhitespace) : Spells s []
  | word {g w s : Text} {ws : List Text} (hg : ∀ c ∈ g, c.isWhitespace) (hw : w ≠ []) (hn : ∀ c ∈ w, ¬ c.isWhitespace)
      (hs : ∀ c ∈ s.head?, c.isWhitespace) (h : Spells s ws) : Spells (g ++ w ++ s) (w :: ws)

/-- a line: a comment, with the text after the hash and its words, or words of data (none for an empty line) -/
inductive Line
  | comment (s : Text) (ws : List Text)
  | row (s : Text) (ws : List Text)

/-- the text of a line -/
def Line.text : Line → Text
  | .comment s _ => '#' :: s
  | .row s _ => s

/-- the words are those of the text; white space follows the hash of a comment -/
def Line.Ok : Line → Prop
  | .comment s ws => Spells s ws ∧ '\n' ∉ s ∧ ∀ c ∈ s.head?, c.isWhitespace
  | .row s ws => Spells s ws ∧ '\n' ∉ s ∧ '#' ∉ s

/-- the text of a file: every line ends with a newline -/
def fileText (ls : List Line) : Text := (ls.map fun l => l.text ++ ['\n']).flatten

/-- the words of the comments -/
def comments : List Line → List (List Text)
  | [] => []
  | .comment _ ws :: ls => ws :: comments ls
  | .row _ _ :: ls => comments ls

/-- the words of the lines with data -/
def data : List Line → List (List Text)
  | [] => []
  | .row _ [] :: ls => data ls
  | .row _ (w :: ws) :: ls => (w :: ws) :: data ls
  | .comment _ _ :: ls => data ls

/-- the word is `atom...`: a comment for each atom -/
def Atom (w : Text) : Prop := ['a', 't', 'o', 'm'] <+: w.map Char.toLower

/-- the label of a comment: its first word, with the second one for atoms -/
inductive Label : List Text → Text → Prop
  | plain {w : Text} {ws : List Text} (h : ¬ Atom w) : Label (w :: ws) w
  | atom {w w' : Text} {ws : List Text} (h : Atom w) : Label (w :: w' :: ws) (w ++ ['_'] ++ w')

/-- every comment with words has a label, and no label is used twice -/
structure Labelled (cs : List (List Text)) : Prop where
  complete : ∀ ws ∈ cs, ws ≠ [] → ∃ k, Label ws k
  distinct : cs.Pairwise fun a b => ∀ k, Label a k → ¬ Label b k

/-- the comment `key n ...` is there and `n` is a number -/
def Column (env : Env) (cs : List (List Text)) (key : String) (n : ℤ) : Prop :=
  ∃ t rest, (key.toList :: t :: rest) ∈ cs ∧ env.int t = .ok n

/-- every comment that begins with `column...` tells a number -/
def ColumnsRead (env : Env) (cs : List (List Text)) : Prop :=
  ∀ w ws, (w :: ws) ∈ cs → "column".toList <+: w → ∃ t rest n, ws = t :: rest ∧ env.int t = .ok n

/-- the comment `CELL a b c alpha beta gamma`.  The words do not contain a hash. -/
def Cell (env : Env) (cs : List (List Text)) (L : Peaks.Lat) : Prop :=
  ∃ ta tb tc td te tf rest a b c d e f, ("CELL".toList :: ta :: tb :: tc :: td :: te :: tf :: rest) ∈ cs ∧
    (∀ w ∈ ta :: tb :: tc :: td :: te :: tf :: rest, '#' ∉ w) ∧
    env.float ta = .ok a ∧ env.float tb = .ok b ∧ env.float tc = .ok c ∧ env.float td = .ok d ∧ env.float te = .ok e ∧
    env.float tf = .ok f ∧ L = env.lattice a b c d e f

/-- the word number `n`, counted from 1, of a row is an integer -/
def IntAt (env : Env) (row : List Text) (n : ℕ) (v : ℤ) : Prop := ∃ t, 1 ≤ n ∧ row[n - 1]? = some t ∧ env.int t = .ok v

/-- the word number `n`, counted from 1, of a row is a real number -/
def RealAt (env : Env) (row : List Text) (n : ℕ) (v : ℝ) : Prop := ∃ t, 1 ≤ n ∧ row[n - 1]? = some t ∧ env.float t = .ok v

/-! ### laz -/

/-- where the columns are -/
structure Layout where
  (h k l f j : ℕ)
  /-- is it the squared structure factor? -/
  squared : Bool

/-- what the comments declare -/
structure Layout.Declared (env : Env) (cs : List (List Text)) (c : Layout) : Prop where
  h : Column env cs "column_h" c.h
  k : Column env cs "column_k" c.k
  l : Column env cs "column_l" c.l
  j : Column env cs "column_j" c.j
  f : if c.squared then Column env cs "column_F2" c.f
    else Column env cs "column_F" c.f ∧ ∀ ws ∈ cs, ws.head? ≠ some "column_F2".toList

/-- a reflection -/
structure Refl where
  hkl : V3 ℤ
  F2 : ℝ
  mult : ℤ

/-- what a row says -/
def Layout.Says (env : Env) (c : Layout) (row : List Text) (r : Refl) : Prop :=
  IntAt env row c.h r.hkl.x ∧ IntAt env row c.k r.hkl.y ∧ IntAt env row c.l r.hkl.z ∧ IntAt env row c.j r.mult ∧
    ∃ f, RealAt env row c.f f ∧ r.F2 = if c.squared then f else f ^ 2

/-- the peak of a reflection: the momentum transfer is the length of `2π(h a* + k b* + l c*)` -/
noncomputable def peakOf (L : Peaks.Lat) (width dw : ℝ) (r : Refl) : Peak :=
  let g : V3 ℝ := (r.hkl.x : ℝ) • L.recbase.r0 + (r.hkl.y : ℝ) • L.recbase.r1 + (r.hkl.z : ℝ) • L.recbase.r2
  ⟨2 * Real.pi * Real.sqrt (g.x ^ 2 + g.y ^ 2 + g.z ^ 2), r.F2, r.mult, width, dw⟩

/-- the comment `sigma_name value ... [barn]` -/
def Sigma (env : Env) (cs : List (List Text)) (name : String) (v : ℝ) : Prop :=
  ∃ t rest u, (("sigma_".toList ++ name.toList) :: t :: (rest ++ [u])) ∈ cs ∧ "[barn]".toList <:+ u ∧ env.float t = .ok v

/-- the cross sections of a laz file for one atom -/
structure Sections (env : Env) (cs : List (List Text)) (nb : ℤ) (coh inc abs : ℝ) : Prop where
  atoms : Column env cs "nb_atoms" nb
  coh : Sigma env cs "coh" coh
  inc : Sigma env cs "inc" inc
  abs : Sigma env cs "abs" abs
  only : ∀ w ws, (w :: ws) ∈ cs → "sigma".toList <+: w → w ∈ ["sigma_coh".toList, "sigma_inc".toList, "sigma_abs".toList]

/-- a laz file -/
structure LazFile (env : Env) (ls : List Line) (L : Peaks.Lat) (c : Layout) (nb : ℤ) (coh inc abs : ℝ) (rs : List Refl) :
    Prop where
  ok : ∀ l ∈ ls, l.Ok
  labelled : Labelled (comments ls)
  cell : Cell env (comments ls) L
  columns : ColumnsRead env (comments ls)
  layout : c.Declared env (comments ls)
  rows : List.Forall₂ (c.Says env) (data ls) rs
  sections : Sections env (comments ls) nb coh inc abs

/-! ### lau -/

/-- a lau file with the columns of the three indexes and of the squared structure factor -/
structure LauFile (env : Env) (ls : List Line) (L : Peaks.Lat) (h k l f : ℕ) (rs : List Hkl) : Prop where
  ok : ∀ x ∈ ls, x.Ok
  labelled : Labelled (comments ls)
  cell : Cell env (comments ls) L
  columns : ColumnsRead env (comments ls)
  colH : Column env (comments ls) "column_h" h
  colK : Column env (comments ls) "column_k" k
  colL : Column env (comments ls) "column_l" l
  colF : Column env (comments ls) "column_F2" f
  rows : List.Forall₂ (fun row r => RealAt env row h r.hkl.x ∧ RealAt env row k r.hkl.y ∧ RealAt env row l r.hkl.z ∧
    RealAt env row f r.F2) (data ls) rs

/-! ### densities of states -/

/-- a line of a density of states file: nothing, a comment (blanks, a hash, words), numbers, or words that are not all numbers -/
inductive DLine
  | blank (s : Text)
  | comment (g s : Text) (ws : List Text)
  | numbers (s : Text) (ws : List Text) (xs : List ℝ)
  | other (s : Text) (ws : List Text)

/-- the text of a line -/
def DLine.text : DLine → Text
  | .blank s => s
  | .comment g s _ => g ++ '#' :: s
  | .numbers s _ _ => s
  | .other s _ => s

/-- the line is what it is said to be -/
def DLine.Ok (env : Env) (l : DLine) : Prop := '\n' ∉ l.text ∧
  match l with
  | .blank s => ∀ c ∈ s, c.isWhitespace
  | .comment g s ws => (∀ c ∈ g, c.isWhitespace) ∧ Spells s ws
  | .numbers s ws xs => Spells s ws ∧ ws ≠ [] ∧ (∀ w ∈ ws.head?, w.head? ≠ some '#') ∧
      List.Forall₂ (fun w x => env.float w = .ok x) ws xs
  | .other s ws => Spells s ws ∧ (∀ w ∈ ws.head?, w.head? ≠ some '#') ∧ ∃ w ∈ ws, ∀ x, env.float w ≠ .ok x

/-- the words of the comments -/
def dcomments : List DLine → List (List Text)
  | [] => []
  | .comment _ _ ws :: ls => ws :: dcomments ls
  | _ :: ls => dcomments ls

/-- the numbers of the file, line by line -/
def numbers : List DLine → List (List ℝ)
  | [] => []
  | .numbers _ _ xs :: ls => xs :: numbers ls
  | _ :: ls => numbers ls

/-- the text of a file -/
def dosText (ls : List DLine) : Text := (ls.map fun l => l.text ++ ['\n']).flatten

/-- the first word of the comment names the unit -/
def Names (unit : String) (ws : List Text) : Prop := ∃ w ∈ ws.head?, unit.toList <:+: w

/-- the unit of the file: named by the first comment that names one, else the one given -/
inductive UnitIs : List (List Text) → Option String → String → Prop
  | given {u : String} : UnitIs [] (some u) u
  | meV {ws : List Text} {cs : List (List Text)} {x : Option String} (h : Names "meV" ws) : UnitIs (ws :: cs) x "meV"
  | teraHz {ws : List Text} {cs : List (List Text)} {x : Option String} (h : Names "TeraHz" ws) (hn : ¬ Names "meV" ws) :
      UnitIs (ws :: cs) x "TeraHz"
  | next {ws : List Text} {cs : List (List Text)} {x : Option String} {u : String} (h : ¬ Names "meV" ws)
      (hn : ¬ Names "TeraHz" ws) (hw : ws ≠ []) (ht : UnitIs cs x u) : UnitIs (ws :: cs) x u

/-- the energy in meV of a quantum with the frequency in 10¹² Hz: `h ν` with `h = 2 π ħ`, for the value of one meV in joule -/
noncomputable def quantum (meV nu : ℝ) : ℝ := 2 * Real.pi * 1.05457148e-34 * (nu * 1e12) / meV

end Verif.DataFiles.Spec
