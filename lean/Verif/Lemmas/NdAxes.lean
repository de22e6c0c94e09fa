import Verif.Spec.NdAxes
import Mathlib.Data.Nat.Digits.Lemmas
import Mathlib.Data.List.Nodup
import Mathlib.Tactic.Ring
import Mathlib.Tactic.FieldSimp
import Mathlib.Tactic.NormNum
import Mathlib.Tactic.Positivity
/-! Helper lemmas for axes and packet sizes. -/

namespace Verif.NdAxes

theorem get_assign {β : Type} (d : List (String × β)) (k k' : String) (v : β) :
    get (assign d k v) k' = if k = k' then .ok v else get d k' := by
  unfold get assign
  by_cases h : k = k'
  · simp [h]
  · simp [List.find?_cons, h]

theorem overlay_name_absent (q : String) (kwds : List (Key × String)) : ∀ d, (∀ v, (Key.name q, v) ∉ kwds) →
    get (overlay kwds d).1 q = get d.1 q := by
  induction kwds with
  | nil => intro d _; rfl
  | cons kv rest ih =>
    intro d h
    obtain ⟨k, v⟩ := kv
    have hr : ∀ v, (Key.name q, v) ∉ rest := fun v hv => h v (by simp [hv])
    cases k with
    | unitOf k => simp only [overlay]; rw [ih _ hr]
    | name k =>
      simp only [overlay]; rw [ih _ hr]
      have : k ≠ q := fun e => h v (by simp [e])
      simp [get_assign, this]

theorem overlay_unit_absent (q : String) (kwds : List (Key × String)) : ∀ d, (∀ v, (Key.unitOf q, v) ∉ kwds) →
    get (overlay kwds d).2 q = get d.2 q := by
  induction kwds with
  | nil => intro d _; rfl
  | cons kv rest ih =>
    intro d h
    obtain ⟨k, v⟩ := kv
    have hr : ∀ v, (Key.unitOf q, v) ∉ rest := fun v hv => h v (by simp [hv])
    cases k with
    | name k => simp only [overlay]; rw [ih _ hr]
    | unitOf k =>
      simp only [overlay]; rw [ih _ hr]
      have : k ≠ q := fun e => h v (by simp [e])
      simp [get_assign, this]

theorem overlay_name (q v : String) (kwds : List (Key × String)) : ∀ d, (kwds.map Prod.fst).Nodup → (Key.name q, v) ∈ kwds →
    get (overlay kwds d).1 q = .ok (.user v) := by
  induction kwds with
  | nil => intro d _ h; simp at h
  | cons kv rest ih =>
    intro d hnd h
    obtain ⟨k, w⟩ := kv
    simp only [List.map_cons, List.nodup_cons] at hnd
    rcases List.mem_cons.mp h with e | e
    · simp only [Prod.mk.injEq] at e
      obtain ⟨rfl, rfl⟩ := e
      simp only [overlay]
      rw [overlay_name_absent _ _ _ (fun u hu => hnd.1 (List.mem_map.mpr ⟨_, hu, rfl⟩)), get_assign]
      simp
    · cases k with
      | unitOf k => exact ih _ hnd.2 e
      | name k => exact ih _ hnd.2 e

theorem overlay_unit (q v : String) (kwds : List (Key × String)) : ∀ d, (kwds.map Prod.fst).Nodup → (Key.unitOf q, v) ∈ kwds →
    get (overlay kwds d).2 q = .ok v := by
  induction kwds with
  | nil => intro d _ h; simp at h
  | cons kv rest ih =>
    intro d hnd h
    obtain ⟨k, w⟩ := kv
    simp only [List.map_cons, List.nodup_cons] at hnd
    rcases List.mem_cons.mp h with e | e
    · simp only [Prod.mk.injEq] at e
      obtain ⟨rfl, rfl⟩ := e
      simp only [overlay]
      rw [overlay_unit_absent _ _ _ (fun u hu => hnd.1 (List.mem_map.mpr ⟨_, hu, rfl⟩)), get_assign]
      simp
    · cases k with
      | unitOf k => exact ih _ hnd.2 e
      | name k => exact ih _ hnd.2 e

theorem axes_ok {d : List (String × Expr) × List (String × String)} {inv : String → Setting} : ∀ {qs : List String} {as : List AxisDef},
    axes d inv qs = .ok as → List.Forall₂ (fun q a => a.name = q ∧ a.bins = (inv q).bins ∧ a.lo = (inv q).lo ∧ a.hi = (inv q).hi) qs as := by
  intro qs
  induction qs with
  | nil => intro as h; simp [axes] at h; subst h; exact .nil
  | cons q qs ih =>
    intro as h
    unfold axes at h
    split at h
    · simp at h
    · split at h
      · simp at h
      · split at h
        · simp at h
        · simp only [Except.ok.injEq] at h
          subst h
          exact .cons ⟨rfl, rfl, rfl, rfl⟩ (ih (by assumption))

theorem parse_render (n : ℕ) : parse (render n) = n := by
  simp [parse, render, Nat.ofDigits_digits]

theorem render_ne_nil {n : ℕ} (h : 0 < n) : (render n).length ≠ 0 := by
  simp [render, Nat.digits_ne_nil_iff_ne_zero.mpr h.ne', h.ne']

end Verif.NdAxes
