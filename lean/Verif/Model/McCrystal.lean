import Verif.Model.McSample
import Verif.Model.Bragg
/-!
The single crystal of McStas, `packages/legacycomponents/mcstas2/share/McStas-Components/samples/Single_crystal.comp`; lines without a
file are lines of it.

Real numbers instead of doubles; `exit` is `cppException`.  Simplified: something that is not a number, or infinite, is
`undefinedBehaviour` as soon as it appears.  Random numbers are arguments.  The table is given by its rows and the numbers of its header.
-/

namespace Verif.McCrystal
open McStas Kinem McSample
open McGuide (K2V V2K)
noncomputable section
open Classical

/-! ### the cell -/

/-- the part of `hkl_info_struct` that describes the cell, lines 227-234: the edges, their lengths and the angles between them (degrees) -/
structure Cell where
  (a b c : V3 ℝ)
  (la lb lc : ℝ)
  (aa bb cc : ℝ)

/-- `!m_ax && !m_ay && !m_az`, lines 337-344, 355-369 -/
def nil (a : V3 ℝ) : Prop := a.x = 0 ∧ a.y = 0 ∧ a.z = 0

/-- `sqrt(m_ax*m_ax+m_ay*m_ay+m_az*m_az)`, lines 342, 375-379 -/
def len (a : V3 ℝ) : ℝ := √(a.x * a.x + a.y * a.y + a.z * a.z)

/-- `if (parsing[i] && !x) x = atof(parsing[i])`, lines 324-329 -/
def orElse (x : ℝ) (h : Option ℝ) : ℝ := if x = 0 then h.getD x else x

/-- the header of the table, lines 324-329: `lattice_a`, `lattice_b`, `lattice_c`, `lattice_aa`, `lattice_bb`, `lattice_cc` -/
structure Header where
  (a b c aa bb cc : Option ℝ)

/-- lines 324-329 -/
def Cell.read (s : Cell) (h : Header) : Cell :=
  { s with la := orElse s.la h.a, lb := orElse s.lb h.b, lc := orElse s.lc h.c,
           aa := orElse s.aa h.aa, bb := orElse s.bb h.bb, cc := orElse s.cc h.cc }

/-- "special cases for the structure definition", lines 336-353 -/
def Cell.defaults (s : Cell) : Cell :=
  let la := if nil s.a then s.la else 0
  let lb := if nil s.b then s.lb else 0
  let lc := if nil s.c then s.lc else 0
  let l := len s.a
  let (la, lb) := if ¬ nil s.a ∧ nil s.b then (l, l) else (la, lb)
  let (la, lc) := if ¬ nil s.a ∧ nil s.c then (l, l) else (la, lc)
  let lb := if la ≠ 0 ∧ lb = 0 then la else lb
  let lc := if lb ≠ 0 ∧ lc = 0 then lb else lc
  let aa := if la ≠ 0 ∧ s.aa = 0 then 90 else s.aa
  let bb := if aa ≠ 0 ∧ s.bb = 0 then aa else s.bb
  let cc := if bb ≠ 0 ∧ s.cc = 0 then bb else s.cc
  { s with la := la, lb := lb, lc := lc, aa := aa, bb := bb, cc := cc }

/-- the cell with edges of given lengths and angles, lines 381-389 -/
def fromAngles (as bs cs aa bb cc : ℝ) : Except Err (V3 ℝ × V3 ℝ × V3 ℝ) := do
  let d := Real.pi / 180
  let cx := cs * Real.cos (bb * d)
  let cy ← num (divD (cs * (Real.cos (aa * d) - Real.cos (cc * d) * Real.cos (bb * d))) (Real.sin (cc * d)))
  let cz ← num (sqrtD (cs * cs - cx * cx - cy * cy))
  .ok (⟨as, 0, 0⟩, ⟨bs * Real.cos (cc * d), bs * Real.sin (cc * d), 0⟩, ⟨cx, cy, cz⟩)

/-- the edges of the cell, lines 355-397 -/
def Cell.edges (s : Cell) : Except Err (V3 ℝ × V3 ℝ × V3 ℝ) :=
  if (nil s.a ∧ s.la = 0) ∨ (nil s.b ∧ s.lb = 0) ∨ (nil s.c ∧ s.lc = 0) then .error .cppException
  else if s.aa ≠ 0 ∧ s.bb ≠ 0 ∧ s.cc ≠ 0 then
    fromAngles (if s.la ≠ 0 then s.la else len s.a) (if s.lb ≠ 0 then s.lb else len s.b) (if s.lc ≠ 0 then s.lc else len s.c) s.aa s.bb s.cc
  else .ok (s.a, s.b, s.c)

/-- the cell of the parameters, lines 595-610: the lengths are 0 -/
def params (a b c : V3 ℝ) (aa bb cc : ℝ) : Cell := ⟨a, b, c, 0, 0, 0, aa, bb, cc⟩

/-- the cell that is used, lines 308-397; without a file there is no header -/
def cell (a b c : V3 ℝ) (aa bb cc : ℝ) (h : Header) : Except Err (V3 ℝ × V3 ℝ × V3 ℝ) := ((params a b c aa bb cc).read h).defaults.edges

/-- `V0` and the reciprocal lattice, lines 399-418 -/
def recip (a b c : V3 ℝ) : Except Err Bragg.Lat := do
  let V0 := |a.dot (b.cross c)|
  let f ← num (divD (2 * Real.pi) V0)
  .ok ⟨f • b.cross c, f • c.cross a, f • a.cross b, V0⟩

/-! ### the reflections -/

/-- `FWHM2RMS`, `packages/legacycomponents/mcstas2/lib/mcstas-r.h:580` -/
def FWHM2RMS : ℝ := 0.424660900144

/-- `MIN2RAD`, `packages/legacycomponents/mcstas2/lib/phys_constants.h:22` -/
def MIN2RAD : ℝ := Real.pi / (180 * 60)

/-- the parameters of the mosaic, line 183 -/
structure Mosaic where
  (iso h v n : ℝ)

/-- the eigenvalues and eigenvectors of the matrix of two dimensions, lines 511-535: `mos_l1`, `mos_l2`, `mos_e1`, `mos_e2`.  The
lengths of lines 527 and 532 are those of vectors that are not 0. -/
def eigen (a b c : ℝ) : ℝ × ℝ × (ℝ × ℝ) × (ℝ × ℝ) :=
  if b * b < 1e-20 * (a * a + c * c) then (a, c, (1, 0), (0, 1))
  else
    let det := (a - c) * (a - c) + 4 * b * b
    let l1 := 0.5 * (a + c - √det)
    let l2 := 0.5 * (a + c + √det)
    let n1 := √(-b * -b + (a - l1) * (a - l1))
    let n2 := √((c - l2) * (c - l2) + -b * -b)
    (l1, l2, (-b / n1, (a - l1) / n1), ((c - l2) / n2, -b / n2))

/-- the axes across `tau` and the widths along them, lines 465-551: `u2`, `sig2`, `u3`, `sig3` -/
def Mosaic.axes (m : Mosaic) (tau : ℝ) (u1 : V3 ℝ) : Except Err (V3 ℝ × ℝ × V3 ℝ × ℝ) := do
  let b1 ← num (normalVec u1)
  let b2 := u1.cross b1
  if m.iso > 0 then
    .ok (b1, FWHM2RMS * tau * MIN2RAD * m.iso, b2, FWHM2RMS * tau * MIN2RAD * m.iso)
  else if m.h > 0 ∧ m.v > 0 ∧ m.n > 0 then
    let D : V3 ℝ := ⟨1 / (FWHM2RMS * MIN2RAD * m.n * (FWHM2RMS * MIN2RAD * m.n)), 1 / (FWHM2RMS * MIN2RAD * m.h * (FWHM2RMS * MIN2RAD * m.h)),
      1 / (FWHM2RMS * MIN2RAD * m.v * (FWHM2RMS * MIN2RAD * m.v))⟩
    let a := b1.x * b1.x * D.x + b1.y * b1.y * D.y + b1.z * b1.z * D.z
    let b := b1.x * b2.x * D.x + b1.y * b2.y * D.y + b1.z * b2.z * D.z
    let c := b2.x * b2.x * D.x + b2.y * b2.y * D.y + b2.z * b2.z * D.z
    let (l1, l2, e1, e2) := eigen a b c
    .ok (e2.1 • b1 + e2.2 • b2, tau / √l1, e1.1 • b1 + e1.2 • b2, tau / √l2)
  else .error .cppException

/-- `cutoff`, lines 556-566 -/
def cutoff (s1 s2 s3 : ℝ) : ℝ :=
  if s1 > s2 then (if s1 > s3 then 5 * s1 else 5 * s3) else (if s2 > s3 then 5 * s2 else 5 * s3)

/-- one row of the table, lines 438-566, with `delta_d_d`; `F` is the column of F, if there is one -/
def reflection (lat : Bragg.Lat) (m : Mosaic) (dd : ℝ) (h k l : ℝ) (F : Option ℝ) (F2 : ℝ) : Except Err Bragg.Peak := do
  let F2 := match F with
    | some F => F * F
    | none => F2
  let tau : V3 ℝ := h • lat.ra + k • lat.rb + l • lat.rc
  let t := len tau
  let u1 : V3 ℝ := ⟨← num (divD tau.x t), ← num (divD tau.y t), ← num (divD tau.z t)⟩
  let s1 := FWHM2RMS * dd * t
  let (u2, s2, u3, s3) ← m.axes t u1
  let m1 ← num (divD 1 (2 * s1 * s1))
  let m2 ← num (divD 1 (2 * s2 * s2))
  let m3 ← num (divD 1 (2 * s3 * s3))
  .ok { F2 := F2, tau := tau, tauLength := t, u1 := u1, u2 := u2, u3 := u3, sig123 := s1 * s2 * s3, m1 := m1, m2 := m2, m3 := m3,
        cutoff := cutoff s1 s2 s3 }

/-! ### TRACE -/

/-- the crystal after `INITIALIZE`, lines 594-628; `sa`, `si`: the cross sections -/
structure Crystal where
  size : V3 ℝ
  (V0 dd sa si p_transmit : ℝ)
  order : ℕ
  powder : Bool
  peaks : List Bragg.Peak

/-- the reflections close to the sphere, lines 717-807: the lines 725-805 are those of `SingleCrystalDiffractionKernel.cc:184-255`,
and so is `normal_vec`.  Simplified: lines 736-741 take the wave number before the first collision where the model takes the length of `ki`,
so the two agree in the first turn, and in later ones up to the factors of the conversion. -/
def Crystal.near (c : Crystal) (ki : V3 ℝ) (k : ℝ) : Except Err (List Bragg.Tau) := do
  let tauMax ← num (divD (2 * k) (1 - 5 * c.dd))
  let f ← num (divD ((2 * Real.pi) ^ (5 / 2 : ℝ)) (c.V0 * k * k))
  num (Bragg.tauLoop tauMax f ki c.peaks)

/-- the random numbers of one turn of the loop: `o1`, `o2` for the orientation of a crystallite (line 705), `ut` for the transmission
(line 825), `ul` for the place (lines 846, 848), `uc` for the kind of scattering (line 855), `i1`, `i2` for the direction (line 858),
`ur` for the reflection (line 866), `z1`, `z2` for the wave vector (lines 881-882) -/
structure Draw where
  (o1 o2 ut ul uc i1 i2 ur z1 z2 : ℝ)

/-- `kix`, lines 702-713 -/
def Crystal.ki (c : Crystal) (v : V3 ℝ) (d : Draw) : Except Err (V3 ℝ) :=
  if c.powder then (num (targetCircle v 0 d.o1 d.o2)).map fun r => ⟨V2K * r.1.x, V2K * r.1.y, V2K * r.1.z⟩
  else .ok ⟨V2K * v.x, V2K * v.y, V2K * v.z⟩

/-- the way to the point of scattering, lines 843-848 -/
def place (S l u : ℝ) : ℝ := if S * l < 1e-6 then u * l else -Real.log (1 - u * (1 - Real.exp (-S * l))) / S

/-- the chosen reflection, lines 866-879; if the sum never exceeds the number the last one is taken -/
def choose (ts : List Bragg.Tau) (u : ℝ) : ℕ :=
  match Bragg.pickLoop (u * Bragg.totalRefl ts) 0 0 (ts.map (·.refl)) with
  | some j => j
  | none => ts.length - 1

/-- coherent scattering, lines 863-899; `k` is the wave number before -/
def coherent (k : ℝ) (ts : List Bragg.Tau) (d : Draw) (e : Event ℝ) : Except Err (Event ℝ) :=
  if Bragg.totalRefl ts ≤ 0 then .ok (absorb e)
  else match ts[choose ts d.ur]? with
    | none => .error .undefinedBehaviour
    | some t => do
      let kf := t.kf d.z1 d.z2
      let adjust ← num (divD k (len kf))
      let w ← num (divD (t.xs * Bragg.totalRefl ts) (Bragg.totalXs ts * t.refl))
      .ok { e with v := K2V • t.peak.toWorld (adjust • kf), p := e.p * w }

/-- scattering at the point that has been chosen, lines 852-900; `Sc`, `Si`, `S` are `coh_xlen`, `inc_xlen`, `tot_xlen` -/
def kick (k Sc Si S : ℝ) (ts : List Bragg.Tau) (d : Draw) (e : Event ℝ) : Except Err (Event ℝ) := do
  let w ← num (divD (Sc + Si) S)
  let e := { e with p := e.p * w }
  if Sc = 0 ∨ d.uc * (Sc + Si) ≤ Si then do
    let (r, _) ← num (targetCircle e.v 0 d.i1 d.i2)
    .ok { e with v := r }
  else coherent k ts d e

/-- how a turn of the loop ends: the neutron leaves, or there is another turn, lines 825-904 -/
inductive Turn where
  | left (e : Event ℝ)
  | again (e : Event ℝ)

/-- `mc_trans`, lines 819-823; `n` is `event_counter` -/
def Crystal.chance (c : Crystal) (n : ℕ) (pt : ℝ) : ℝ := if n = 0 ∧ c.p_transmit ≥ 0 ∧ c.p_transmit ≤ 1 then c.p_transmit else pt

/-- one turn of the loop behind the intersection, lines 701-904; `l` is `l_full`, `Si`, `Sa` the inverse lengths of incoherent scattering
and absorption, lines 683-684, 810-815 -/
def Crystal.turn (c : Crystal) (G : Gravity) (v Sa Si : ℝ) (n : ℕ) (l : ℝ) (d : Draw) (e : Event ℝ) : Except Err Turn := do
  let ki ← c.ki e.v d
  let ts ← c.near ki (V2K * v)
  let Sc := 1e2 * Bragg.totalXs ts / c.V0
  let S := Sa + Si + Sc
  let pt := Real.exp (-S * l)
  let mc := c.chance n pt
  if mc > 0 ∧ (mc ≥ 1 ∨ d.ut < mc) then .ok (.left { e with p := e.p * (pt / mc) })
  else if S ≤ 0 then .ok (.left (absorb e))
  else if 1 - mc ≤ 0 then .ok (.left e)
  else do
    let e := if n = 0 then { e with p := e.p * (|1 - pt| / (1 - mc)) } else e
    let e ← kick (V2K * v) Sc Si S ts d (propDt G (place S l d.ul / v) e)
    if e.p = -1 then .ok (.left e)
    else if c.order ≠ 0 ∧ n + 1 ≥ c.order then .ok (.left e)
    else .ok (.again e)

/-- the loop over the events, lines 687-905; `none`: the random numbers do not suffice -/
def Crystal.loop (c : Crystal) (G : Gravity) (v Sa Si : ℝ) : ℕ → List Draw → Event ℝ → Except Err (Option (Event ℝ))
  | _, [], _ => .ok none
  | n, d :: ds, e =>
    match boxIntersect e.r e.v c.size with
    | none => .ok (some e)
    | some (t1, t2) =>
      if t2 * v < -1e-9 ∨ t1 * v > 1e-9 then .ok (some e)
      else do
        match ← c.turn G v Sa Si n (t2 * v) d e with
        | .left e => .ok (some e)
        | .again e => c.loop G v Sa Si (n + 1) ds e

/-- `TRACE`, lines 672-906 -/
def Crystal.trace (c : Crystal) (G : Gravity) (ds : List Draw) (e : Event ℝ) : Except Err (Option (Event ℝ)) :=
  match boxIntersect e.r e.v c.size with
  | none => .ok (some e)
  | some (t1, t2) =>
    if t2 > 0 then do
      let e := if t1 > 0 then propDt G t1 e else e
      let v := len e.v
      let sa ← num (divD (c.sa * 2200) v)
      let Sa ← num (divD (1e2 * sa) c.V0)
      let Si ← num (divD (1e2 * c.si) c.V0)
      c.loop G v Sa Si 0 ds e
    else .ok (some e)

end
end Verif.McCrystal
