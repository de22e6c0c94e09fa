import Verif.Lemmas.StsSource
import Verif.Lemmas.SnsSource
import Mathlib.Analysis.Real.Pi.Bounds
/-!
Properties of the moderators of the second target station (`STS_Source.comp`).
-/

namespace Verif.StsSource
open Real

/-- C342: neutrons from a moderator with a cylindrical face start on this face and within its height; the width that is used is not above that of the moderator -/
theorem C342_face {c : Par} {f : File} (hT : f.TRadius = 0) (hW : 0 < f.PWidth) (hH : 0 < f.PHeight) {u1 u2 : ℝ} (h1 : 0 ≤ u1) (h1' : u1 ≤ 1)
    (h2 : 0 ≤ u2) (h2' : u2 ≤ 1) (hR : c.dmode = true → xwidth c f / 2 + |f.MRadius0 * sin (off c f)| ≤ f.MRadius0) :
    OnFace f.MRadius0 (off c f) (place c f u1 u2) ∧ |(place c f u1 u2).y| ≤ f.PHeight / 2 ∧ 0 < xwidth c f ∧ xwidth c f ≤ f.PWidth := by
  obtain ⟨w1, w2⟩ := width_pos (c := c) hW
  obtain ⟨y1, y2⟩ := height_pos (c := c) hH
  refine ⟨?_, ?_, w1, w2⟩
  · unfold place OnFace
    rw [if_neg (not_not_intro hT)]
    by_cases hd : c.dmode = true
    · rw [if_pos hd]
      have hx := centred h2 h2' w1.le
      have hr := hR hd
      simp only [cylx, cylz]
      rw [abs_le] at hx
      have hs := abs_le.1 (le_refl |f.MRadius0 * sin (off c f)|)
      have hnn : 0 ≤ f.MRadius0 * f.MRadius0 - ((u2 - 0.5) * xwidth c f - -f.MRadius0 * sin (off c f)) ^ 2 := by
        have hb : |(u2 - 0.5) * xwidth c f - -f.MRadius0 * sin (off c f)| ≤ f.MRadius0 := by
          rw [abs_le]
          constructor <;> nlinarith
        have := sq_abs ((u2 - 0.5) * xwidth c f - -f.MRadius0 * sin (off c f))
        nlinarith [abs_nonneg ((u2 - 0.5) * xwidth c f - -f.MRadius0 * sin (off c f))]
      have hq := sq_sqrt hnn
      linear_combination hq
    · rw [if_neg hd]
      simp only [cylx, cylz]
      have := sin_sq_add_cos_sq (-cylphi1 c f + u2 * (cylphi1 c f + cylphi2 c f) + off c f)
      linear_combination f.MRadius0 ^ 2 * this
  · have hy := centred h1 h1' y1.le
    unfold place
    rw [if_neg (not_not_intro hT)]
    split_ifs
    · exact hy.trans (by linarith)
    · exact hy.trans (by linarith)

/-- a cylinder of radius 1, 0.2 wide and 0.1 high -/
noncomputable def cylinder : File := ⟨700, 15, 1, 0, 0.1, 0.2, 0⟩

/-- default parameters -/
noncomputable def plain (dmode : Bool) : Par := ⟨0, 0, 0, 1, 0.03, 0.03, 0, 0, -1000, dmode⟩

theorem plain_off (b : Bool) : off (plain b) cylinder = 0 := off_zero (by unfold offangle plain cylinder; norm_num)

theorem plain_width (b : Bool) : xwidth (plain b) cylinder = 0.2 := by
  unfold xwidth plain cylinder
  norm_num

example : OnFace 1 0 (place (plain true) cylinder 0 1) := by
  have h := (C342_face (c := plain true) (f := cylinder) rfl (by unfold cylinder; norm_num) (by unfold cylinder; norm_num) (u1 := 0) (u2 := 1)
    le_rfl (by norm_num) (by norm_num) le_rfl (fun _ => by rw [plain_off, plain_width]; unfold cylinder; norm_num)).1
  rwa [plain_off] at h

/-- C342 (partial): they start within its width with `dmode=1`, or if the moderator is not turned.  Missing: `dmode=0` and a moderator that is turned. -/
theorem C342_partial {c : Par} {f : File} (hT : f.TRadius = 0) (hW : 0 < f.PWidth) {u1 u2 : ℝ} (h2 : 0 ≤ u2) (h2' : u2 ≤ 1)
    (h : c.dmode = true ∨ offangle c f = 0 ∧ 0 < f.MRadius0 ∧ xwidth c f ≤ 2 * f.MRadius0) :
    |(place c f u1 u2).x| ≤ xwidth c f / 2 := by
  obtain ⟨w1, -⟩ := width_pos (c := c) hW
  unfold place
  rw [if_neg (not_not_intro hT)]
  by_cases hd : c.dmode = true
  · rw [if_pos hd]
    exact centred h2 h2' w1.le
  · rw [if_neg hd]
    obtain ⟨ho, hR, hw⟩ := h.resolve_left hd
    obtain ⟨k0, k1, k2⟩ := turned_edges ho hR w1.le hw
    have hpl := not_turned (u1 := u1) (u2 := u2) hT hd ho hR w1.le hw
    unfold place at hpl
    rw [if_neg (not_not_intro hT), if_neg hd] at hpl
    rw [hpl]
    simp only [abs_mul, abs_of_pos hR]
    have hb := sin_between (a := -cylphi1 c f + u2 * (cylphi1 c f + cylphi1 c f)) k1 (by nlinarith) (by nlinarith)
    rw [k2] at hb
    calc f.MRadius0 * |sin (-cylphi1 c f + u2 * (cylphi1 c f + cylphi1 c f))| ≤ f.MRadius0 * (xwidth c f / (2 * f.MRadius0)) :=
          mul_le_mul_of_nonneg_left hb hR.le
      _ = xwidth c f / 2 := by field_simp

example : |(place (plain false) cylinder 0 1).x| ≤ 0.2 / 2 := by
  have h := C342_partial (c := plain false) (f := cylinder) rfl (by unfold cylinder; norm_num) (u1 := 0) (u2 := 1) (by norm_num) le_rfl
    (.inr ⟨by unfold offangle plain cylinder; norm_num, by unfold cylinder; norm_num, by rw [plain_width]; unfold cylinder; norm_num⟩)
  rwa [plain_width] at h

/-- C342: the whole width is used, and the height evenly -/
theorem C342_whole {c : Par} {f : File} (hT : f.TRadius = 0) (hW : 0 < f.PWidth) (u1 : ℝ)
    (h : c.dmode = true ∨ offangle c f = 0 ∧ 0 < f.MRadius0 ∧ xwidth c f ≤ 2 * f.MRadius0) :
    (place c f u1 0).x = -xwidth c f / 2 ∧ (place c f u1 1).x = xwidth c f / 2 ∧ (∀ u2, (place c f u1 u2).y = (u1 - 1 / 2) * yheight c f) ∧
      (c.dmode = true → ∀ u2, (place c f u1 u2).x = (u2 - 1 / 2) * xwidth c f) := by
  obtain ⟨w1, -⟩ := width_pos (c := c) hW
  refine ⟨?_, ?_, fun u2 => ?_, fun hd u2 => ?_⟩
  · rcases h with h | ⟨ho, hR, hw⟩
    · unfold place
      rw [if_neg (not_not_intro hT), if_pos h]
      norm_num
      ring
    · by_cases h : c.dmode = true
      · unfold place
        rw [if_neg (not_not_intro hT), if_pos h]
        norm_num
        ring
      · rw [not_turned hT h ho hR w1.le hw]
        simp only [zero_mul, add_zero, sin_neg, (turned_edges ho hR w1.le hw).2.2]
        field_simp
  · rcases h with h | ⟨ho, hR, hw⟩
    · unfold place
      rw [if_neg (not_not_intro hT), if_pos h]
      norm_num
      ring
    · by_cases h : c.dmode = true
      · unfold place
        rw [if_neg (not_not_intro hT), if_pos h]
        norm_num
        ring
      · rw [not_turned hT h ho hR w1.le hw]
        rw [show -cylphi1 c f + 1 * (cylphi1 c f + cylphi1 c f) = cylphi1 c f by ring, (turned_edges ho hR w1.le hw).2.2]
        field_simp
  · unfold place
    rw [if_neg (not_not_intro hT)]
    split_ifs <;> norm_num
  · unfold place
    rw [if_neg (not_not_intro hT), if_pos hd]
    norm_num

example : (place (plain false) cylinder 0 1).x = 0.2 / 2 := by
  have h := (C342_whole (c := plain false) (f := cylinder) rfl (by unfold cylinder; norm_num) 0
    (.inr ⟨by unfold offangle plain cylinder; norm_num, by unfold cylinder; norm_num, by rw [plain_width]; unfold cylinder; norm_num⟩)).2.1
  rwa [plain_width] at h

/-- C342: the sizes and the angle are those of the parameters, if they are given and not above those of the file, otherwise those of the file -/
theorem C342_sizes (c : Par) (f : File) : xwidth c f = (if 0 < c.xwidth ∧ c.xwidth ≤ f.PWidth then c.xwidth else f.PWidth) ∧
    yheight c f = (if 0 < c.yheight ∧ c.yheight ≤ f.PHeight then c.yheight else f.PHeight) ∧
    radius c f = (if 0 < c.radius ∧ c.radius ≤ f.TRadius then c.radius else f.TRadius) ∧
    off c f = (if c.MOffangle > -1000 then c.MOffangle else f.MOffangle0) * π / 180 := by
  have key : ∀ a b : ℝ, (if a > b ∨ a ≤ 0 then b else a) = if 0 < a ∧ a ≤ b then a else b := by
    intro a b
    by_cases h : a > b ∨ a ≤ 0
    · rw [if_pos h, if_neg]
      rintro ⟨h1, h2⟩
      rcases h with h | h <;> linarith
    · rw [if_neg h, if_pos]
      push Not at h
      exact ⟨h.2, h.1⟩
  refine ⟨key _ _, key _ _, key _ _, ?_⟩
  unfold off offangle
  by_cases h1 : c.MOffangle = f.MOffangle0
  · simp [h1]
    ring
  · by_cases h2 : c.MOffangle > -1000
    · rw [if_pos ⟨h1, h2⟩, if_pos h2]
      ring
    · rw [if_neg (fun h => h2 h.2), if_neg h2]
      ring

example : xwidth { plain true with xwidth := 0.1 } cylinder = 0.1 := by
  rw [(C342_sizes _ _).1, if_pos]
  unfold plain cylinder
  norm_num

/-- a moderator of radius 1 that is turned by 30 degrees, as wide as the angle of 30 degrees on its right side -/
noncomputable def turned : File := ⟨700, 15, 1, 30, 0.1, √3 - 1, 0⟩

/-- C342 is false with `dmode=0` for a moderator that is turned: the angles to both edges are exchanged (`STS_Source.comp:458`), and neutrons start beside the face -/
theorem C342_edges_false : (place (plain false) turned (1 / 2) 0).x = -1 / 2 ∧ xwidth (plain false) turned = √3 - 1 ∧
    (place (plain false) turned (1 / 2) 0).x < -xwidth (plain false) turned / 2 := by
  have h3 : √3 ^ 2 = (3 : ℝ) := sq_sqrt (by norm_num)
  have h30 : 0 ≤ √3 := sqrt_nonneg 3
  have h31 : 1 < √3 := by nlinarith
  have h32 : √3 < 2 := by nlinarith
  have hw : xwidth (plain false) turned = √3 - 1 := by
    unfold xwidth
    rw [if_pos (.inr (by unfold plain; norm_num))]
    rfl
  have ho : off (plain false) turned = π / 6 := by
    unfold off offangle plain turned
    norm_num
    ring
  have hx : cylx (plain false) turned = -1 / 2 := by
    rw [cylx, ho, sin_pi_div_six]
    simp [turned]
    norm_num
  have hz : cylz (plain false) turned = -(√3 / 2) := by
    rw [cylz, ho, cos_pi_div_six]
    simp [turned]
  have h12 : sin (π / 12) ^ 2 = (2 - √3) / 4 := by
    rw [sin_sq_eq_half_sub, show 2 * (π / 12) = π / 6 by ring, cos_pi_div_six]
    ring
  have hs12 : 0 ≤ sin (π / 12) := sin_nonneg_of_nonneg_of_le_pi (by positivity) (by linarith [pi_pos])
  have hφ : cylphi1 (plain false) turned = π / 6 := by
    unfold cylphi1 cylphi
    simp only [hw, hx, hz]
    have e1 : turned.MRadius0 = 1 := rfl
    rw [e1]
    have e2 : √(1 * 1 - ((√3 - 1) / 2 - -1 / 2) ^ 2) = 1 / 2 := by
      rw [show (1 : ℝ) * 1 - ((√3 - 1) / 2 - -1 / 2) ^ 2 = (1 / 2) ^ 2 by nlinarith, sqrt_sq (by norm_num)]
    rw [e2]
    have e3 : √((1 / 2 + -(√3 / 2)) * (1 / 2 + -(√3 / 2)) + (√3 - 1) * (√3 - 1) / 4) = 2 * sin (π / 12) := by
      rw [show (1 / 2 + -(√3 / 2)) * (1 / 2 + -(√3 / 2)) + (√3 - 1) * (√3 - 1) / 4 = (2 * sin (π / 12)) ^ 2 by nlinarith, sqrt_sq (by linarith)]
    rw [e3, show 2 * sin (π / 12) / 2 / 1 = sin (π / 12) by ring, arcsin_sin (by linarith [pi_pos]) (by linarith [pi_pos])]
    ring
  have hpl : (place (plain false) turned (1 / 2) 0).x = -1 / 2 := by
    unfold place
    rw [if_neg (not_not_intro (show turned.TRadius = 0 from rfl)), if_neg (by simp [plain])]
    simp only [hx, hφ, ho]
    simp
  refine ⟨hpl, hw, ?_⟩
  rw [hpl, hw]
  linarith

/-- it is 30 degrees also for the parameters -/
example : offangle (plain false) turned = 30 := by
  unfold offangle plain turned
  norm_num

/-- C343: neutrons from a disk start in its plane, within the radius that is used, which is not above that of the moderator; they are spread evenly: the part of the random
numbers that is used for distances up to `s` is the part of the area -/
theorem C343_disk {c : Par} {f : File} (hT : 0 < f.TRadius) {u1 u2 : ℝ} (h2 : 0 ≤ u2) (h2' : u2 ≤ 1) :
    (place c f u1 u2).z = tan (off c f) * (place c f u1 u2).x ∧
    (place c f u1 u2).x ^ 2 + (place c f u1 u2).y ^ 2 ≤ radius c f ^ 2 ∧ 0 < radius c f ∧ radius c f ≤ f.TRadius ∧
    (∀ s, 0 ≤ s → ((place c f u1 u2).x ^ 2 + (place c f u1 u2).y ^ 2 ≤ s ^ 2 ↔ u2 ≤ π * s ^ 2 / (π * radius c f ^ 2))) ∧
    ∃ r, 0 ≤ r ∧ (place c f u1 u2).x = r * cos (2 * π * u1) ∧ (place c f u1 u2).y = r * sin (2 * π * u1) := by
  obtain ⟨r1, r2⟩ := radius_pos (c := c) hT
  have e : place c f u1 u2 = ⟨√u2 * radius c f * cos (2 * π * u1), √u2 * radius c f * sin (2 * π * u1),
      tan (off c f) * (√u2 * radius c f * cos (2 * π * u1))⟩ := by
    unfold place
    rw [if_pos hT.ne']
  have hs := sq_sqrt h2
  have hr : (place c f u1 u2).x ^ 2 + (place c f u1 u2).y ^ 2 = u2 * radius c f ^ 2 := by
    rw [e]
    simp only
    have := sin_sq_add_cos_sq (2 * π * u1)
    linear_combination (√u2 * radius c f) ^ 2 * this + radius c f ^ 2 * hs
  refine ⟨by rw [e], ?_, r1, r2, fun s _ => ?_, √u2 * radius c f, by positivity, by rw [e], by rw [e]⟩
  · rw [hr]
    nlinarith [sq_nonneg (radius c f)]
  · rw [hr, mul_div_mul_left _ _ pi_pos.ne', le_div_iff₀ (by positivity)]

/-- a disk of radius 2 that is turned by 45 degrees -/
noncomputable def disk : File := ⟨700, 15, 0, 45, 0, 0, 2⟩

example : (place (plain true) disk 0 (1 / 4)).x ^ 2 + (place (plain true) disk 0 (1 / 4)).y ^ 2 ≤ radius (plain true) disk ^ 2 :=
  (C343_disk (by unfold disk; norm_num) (by norm_num) (by norm_num)).2.1

/-- C344 (partial): a neutron that starts in the plane z = 0 flies forwards, is within the width of the window when it gets there, and its height multiplied with the cosine of its
horizontal angle is within the height.  Missing: moderators that are not in this plane, and the height itself. -/
theorem C344_partial {c : Par} (hd : 0 < c.dist) (hw : 0 ≤ c.focus_xw) (hh : 0 ≤ c.focus_yh) {r : V3 ℝ} (hz : r.z = 0) {u3 u4 v : ℝ} (h3 : 0 ≤ u3)
    (h3' : u3 ≤ 1) (h4 : 0 ≤ u4) (h4' : u4 ≤ 1) (hv : 0 < v) :
    let w := velocity v (angles c r u3 u4).1 (angles c r u3 u4).2
    0 < w.z ∧ |(arrival c.dist r w).1| ≤ c.focus_xw / 2 ∧
      |r.y + ((arrival c.dist r w).2 - r.y) * cos (angles c r u3 u4).1| ≤ c.focus_yh / 2 := by
  obtain ⟨t1, t2, t3⟩ := SnsSource.aim_ok hd hw r.x h3 h3'
  obtain ⟨p1, p2, p3⟩ := SnsSource.aim_ok hd hh r.y h4 h4'
  have ht : (angles c r u3 u4).1 = arctan (-(c.focus_xw / 2 + r.x) / c.dist) +
    (arctan ((c.focus_xw / 2 - r.x) / c.dist) - arctan (-(c.focus_xw / 2 + r.x) / c.dist)) * u3 := rfl
  have hp : (angles c r u3 u4).2 = arctan (-(c.focus_yh / 2 + r.y) / c.dist) +
    (arctan ((c.focus_yh / 2 - r.y) / c.dist) - arctan (-(c.focus_yh / 2 + r.y) / c.dist)) * u4 := rfl
  rw [← ht] at t1 t2 t3
  rw [← hp] at p1 p2 p3
  generalize (angles c r u3 u4).1 = θ at *
  generalize (angles c r u3 u4).2 = φ at *
  have hct : 0 < cos θ := cos_pos_of_mem_Ioo ⟨t1, t2⟩
  have hcp : 0 < cos φ := cos_pos_of_mem_Ioo ⟨p1, p2⟩
  simp only [velocity, arrival, hz, sub_zero]
  refine ⟨by positivity, ?_, ?_⟩
  · rw [tan_eq_sin_div_cos] at t3
    rwa [show c.dist / (v * cos φ * cos θ) * (v * cos φ * sin θ) = c.dist * (sin θ / cos θ) by field_simp]
  · rw [tan_eq_sin_div_cos] at p3
    rwa [show (r.y + c.dist / (v * cos φ * cos θ) * (v * sin φ) - r.y) * cos θ = c.dist * (sin φ / cos φ) by field_simp; ring]

example : 0 < (velocity 500 (angles (plain true) ⟨0.01, 0.02, 0⟩ 0.3 0.7).1 (angles (plain true) ⟨0.01, 0.02, 0⟩ 0.3 0.7).2).z :=
  (C344_partial (c := plain true) (by unfold plain; norm_num) (by unfold plain; norm_num) (by unfold plain; norm_num) rfl (by norm_num) (by norm_num)
    (by norm_num) (by norm_num) (by norm_num)).1

/-- C344: the velocity has the speed of the neutron, and the angles -/
theorem C344_speed (v θ φ : ℝ) : (velocity v θ φ).x ^ 2 + (velocity v θ φ).y ^ 2 + (velocity v θ φ).z ^ 2 = v ^ 2 ∧
    (velocity v θ φ).x * cos θ = (velocity v θ φ).z * sin θ ∧ (velocity v θ φ).y = v * sin φ := by
  refine ⟨?_, ?_, rfl⟩
  · simp only [velocity]
    linear_combination v ^ 2 * cos φ ^ 2 * sin_sq_add_cos_sq θ + v ^ 2 * sin_sq_add_cos_sq φ
  · simp only [velocity]
    ring

example : (velocity 500 0 0).z = 500 := by simp [velocity]

/-- a window of 0.4 at 2 m -/
noncomputable def window : Par := ⟨0, 0, 0, 2, 0.4, 0.4, 0, 0, -1000, true⟩

/-- C344 is false for a moderator that is turned: the distance to the window is taken from the middle of the moderator, and all neutrons from this point of a disk miss the window -/
theorem C344_tilt_false {u3 u4 v : ℝ} (h3 : 0 ≤ u3) (h3' : u3 ≤ 1) (h4 : 0 ≤ u4) (h4' : u4 ≤ 1) (hv : 0 < v) :
    let r := place window disk 0 (1 / 4)
    let w := velocity v (angles window r u3 u4).1 (angles window r u3 u4).2
    r = ⟨1, 0, 1⟩ ∧ 0 < w.z ∧ window.focus_xw / 2 < (arrival window.dist r w).1 := by
  have hr : place window disk 0 (1 / 4) = ⟨1, 0, 1⟩ := by
    have ho : off window disk = π / 4 := by
      unfold off offangle window disk
      norm_num
      ring
    have hrad : radius window disk = 2 := by
      unfold radius window disk
      norm_num
    have hq : √(1 / 4 : ℝ) = 1 / 2 := by
      rw [show (1 / 4 : ℝ) = (1 / 2) ^ 2 by norm_num, sqrt_sq (by norm_num)]
    unfold place
    rw [if_pos (by unfold disk; norm_num), ho, hrad, hq, tan_pi_div_four]
    norm_num
  intro r w
  have hr' : r = ⟨1, 0, 1⟩ := hr
  refine ⟨hr', ?_⟩
  have hd : window.dist = 2 := rfl
  have hx : window.focus_xw = 0.4 := rfl
  have hy : window.focus_yh = 0.4 := rfl
  obtain ⟨t1, t2, t3⟩ := SnsSource.aim_ok (d := window.dist) (w := window.focus_xw) (by rw [hd]; norm_num) (by rw [hx]; norm_num) r.x h3 h3'
  obtain ⟨p1, p2, -⟩ := SnsSource.aim_ok (d := window.dist) (w := window.focus_yh) (by rw [hd]; norm_num) (by rw [hy]; norm_num) r.y h4 h4'
  have ew : w = velocity v (angles window r u3 u4).1 (angles window r u3 u4).2 := rfl
  have ht : (angles window r u3 u4).1 = arctan (-(window.focus_xw / 2 + r.x) / window.dist) +
    (arctan ((window.focus_xw / 2 - r.x) / window.dist) - arctan (-(window.focus_xw / 2 + r.x) / window.dist)) * u3 := rfl
  have hp : (angles window r u3 u4).2 = arctan (-(window.focus_yh / 2 + r.y) / window.dist) +
    (arctan ((window.focus_yh / 2 - r.y) / window.dist) - arctan (-(window.focus_yh / 2 + r.y) / window.dist)) * u4 := rfl
  rw [← ht] at t1 t2 t3
  rw [← hp] at p1 p2
  rw [ew]
  clear ew w
  generalize (angles window r u3 u4).1 = θ at *
  generalize (angles window r u3 u4).2 = φ at *
  have hct : 0 < cos θ := cos_pos_of_mem_Ioo ⟨t1, t2⟩
  have hcp : 0 < cos φ := cos_pos_of_mem_Ioo ⟨p1, p2⟩
  rw [hr', hd, hx] at t3
  rw [hr', hd, hx]
  simp only [velocity, arrival] at *
  refine ⟨by positivity, ?_⟩
  rw [show (2 - 1 : ℝ) / (v * cos φ * cos θ) * (v * cos φ * sin θ) = sin θ / cos θ by field_simp; ring, ← tan_eq_sin_div_cos]
  rw [abs_le] at t3
  norm_num at t3 ⊢
  linarith [t3.1]

/-- the window is in front of the point -/
example : (place window disk 0 (1 / 4)).z < window.dist := by
  rw [(C344_tilt_false (u3 := 0) (u4 := 0) (v := 1) le_rfl (by norm_num) le_rfl (by norm_num) one_pos).1]
  unfold window
  norm_num

/-- C345 (partial): the factor `focus_xw*focus_yh/dist^2` of the weight is the solid angle of the directions up to a factor near 1 if the window is small.
Missing: that they are the same. -/
theorem C345_partial {c : Par} (hd : 0 < c.dist) (hw : 0 < c.focus_xw) (hh : 0 < c.focus_yh) {r : V3 ℝ} {m n : ℝ} (hm : c.focus_xw / 2 + |r.x| ≤ m * c.dist)
    (hn : c.focus_yh / 2 + |r.y| ≤ n * c.dist) :
    let h := div c.focus_xw c.dist r.x
    let v := div c.focus_yh c.dist r.y
    c.focus_xw * c.focus_yh / c.dist ^ 2 / ((1 + m ^ 2) * (1 + n ^ 2) ^ 2) ≤ solidAngle h.1 h.2 v.1 v.2 ∧
      solidAngle h.1 h.2 v.1 v.2 ≤ c.focus_xw * c.focus_yh / c.dist ^ 2 := by
  intro h v
  rw [solid_eq]
  have key : ∀ {w x m : ℝ}, 0 < w → w / 2 + |x| ≤ m * c.dist → -(w / 2 + x) / c.dist < (w / 2 - x) / c.dist ∧ |-(w / 2 + x) / c.dist| ≤ m ∧
      |(w / 2 - x) / c.dist| ≤ m ∧ (w / 2 - x) / c.dist - -(w / 2 + x) / c.dist = w / c.dist := by
    intro w x m hw hm
    have hx := abs_le.1 (le_refl |x|)
    refine ⟨div_lt_div_of_pos_right (by linarith) hd, ?_, ?_, by field_simp; ring⟩
    · rw [abs_div, abs_of_pos hd, div_le_iff₀ hd, abs_le]
      constructor <;> linarith
    · rw [abs_div, abs_of_pos hd, div_le_iff₀ hd, abs_le]
      constructor <;> linarith
  obtain ⟨a1, a2, a3, a4⟩ := key hw hm
  obtain ⟨b1, b2, b3, b4⟩ := key hh hn
  obtain ⟨l1, l2⟩ := arctan_diff a1 a2 a3
  obtain ⟨k1, k2⟩ := sin_arctan_diff b1 b2 b3
  rw [a4] at l1 l2
  rw [b4] at k1 k2
  have p1 : 0 < c.focus_xw / c.dist / (1 + m ^ 2) := by positivity
  have p2 : 0 < c.focus_yh / c.dist / (1 + n ^ 2) ^ 2 := by positivity
  have e : c.focus_xw * c.focus_yh / c.dist ^ 2 = c.focus_xw / c.dist * (c.focus_yh / c.dist) := by field_simp
  constructor
  · rw [e, mul_div_mul_comm]
    exact mul_le_mul l1 k1 p2.le (p1.le.trans l1)
  · rw [e]
    exact mul_le_mul l2 k2 (p2.le.trans k1) (by positivity)

example : let h := div 0.03 1 0; let v := div 0.03 1 0
    solidAngle h.1 h.2 v.1 v.2 ≤ 0.03 * 0.03 / 1 ^ 2 :=
  (C345_partial (c := plain true) (r := ⟨0, 0, 0⟩) (m := 0.015) (n := 0.015) (by unfold plain; norm_num) (by unfold plain; norm_num)
    (by unfold plain; norm_num) (by unfold plain; norm_num) (by unfold plain; norm_num)).2

/-- C345 is false for a window of 2 m at 1 m: the factor is 4, and the solid angle of the directions is less than 2.3 -/
theorem C345_false : let h := div 2 1 0; let v := div 2 1 0
    (2 : ℝ) * 2 / 1 ^ 2 = 4 ∧ solidAngle h.1 h.2 v.1 v.2 < 2.3 := by
  intro h v
  refine ⟨by norm_num, ?_⟩
  have e : div 2 1 0 = (-(π / 4), π / 4) := by
    unfold div
    norm_num
  have eh : h = (-(π / 4), π / 4) := e
  have ev : v = (-(π / 4), π / 4) := e
  rw [solid_eq, eh, ev]
  simp only [sin_neg, sin_pi_div_four]
  have h2 : √2 < 1.415 := by
    rw [sqrt_lt' (by norm_num)]
    norm_num
  have hp := pi_lt_d2
  have hp0 := pi_pos
  have : (π / 4 - -(π / 4)) * (√2 / 2 - -(√2 / 2)) = π / 2 * √2 := by ring
  rw [this]
  nlinarith [sqrt_nonneg (2 : ℝ)]

/-- parameters with such a window -/
example : p_in ⟨0, 0, 0, 1, 2, 2, 0, 0, -1000, true⟩ cylinder = 4 := by
  unfold p_in share xwidth yheight cylinder
  norm_num

/-- C345: the weight has the factors of the area that is used, of the power and of the time between pulses; without parameters for the power and the frequency
it is that of the file -/
theorem C345_scale {c : Par} {f : File} (hP : f.PPower0 ≠ 0) (hF : f.Frequency0 ≠ 0) :
    p_in c f = c.focus_xw * c.focus_yh / c.dist ^ 2 *
      (if f.TRadius = 0 then xwidth c f * yheight c f / (f.PWidth * f.PHeight) else (radius c f / f.TRadius) ^ 2) *
      ((if c.PPower = 0 then f.PPower0 else c.PPower) / f.PPower0) * (f.Frequency0 / (if c.Frequency = 0 then f.Frequency0 else c.Frequency)) := by
  have hs : share c f = if f.TRadius = 0 then xwidth c f * yheight c f / (f.PWidth * f.PHeight) else (radius c f / f.TRadius) ^ 2 := by
    unfold share
    by_cases h : f.TRadius = 0
    · rw [if_neg (not_not_intro h), if_pos h]
    · rw [if_pos h, if_neg h]
      have := pi_pos.ne'
      field_simp
  unfold p_in
  rw [hs, ← sq]
  by_cases h1 : c.PPower = 0 <;> by_cases h2 : c.Frequency = 0 <;> simp [h1, h2, hP, hF]

example : p_in { plain true with PPower := 1400 } cylinder = 2 * p_in (plain true) cylinder := by
  rw [C345_scale (by unfold cylinder; norm_num) (by unfold cylinder; norm_num), C345_scale (by unfold cylinder; norm_num) (by unfold cylinder; norm_num)]
  unfold plain cylinder xwidth yheight
  norm_num

end Verif.StsSource
