import Verif.Model.Registry
/-!
Specification of registries: the newest module of a component.
-/

namespace Verif.Registry

/-- the module of the last repository that has one -/
def provided (W : World) (k : Key) : Option Mod := (W.repos.filterMap fun repo => W.load repo k).getLast?

/-- the modules of a component that are listed in the repositories and make components -/
def importable (W : World) (k : Key) : List Mod :=
  W.repos.flatMap fun repo => (W.contents repo).filterMap fun k' =>
    if k' = k then (W.load repo k').filter (·.factory) else none

/-- the newest module of a component after a call -/
def newer (W : World) (k : Key) (cur : Option Mod) : Op → Option Mod
  | .register k' m => if k' = k then some m else cur
  | .getFactory k' => if k' = k then cur.or (provided W k) else cur
  | .getInfo k' => if k' = k then cur.or (provided W k) else cur
  | .importAll => (importable W k).getLast?.or cur

/-- the newest module of a component after a sequence of calls -/
def newest (W : World) (ops : List Op) (k : Key) : Option Mod := ops.foldl (newer W k) none

/-- a module with both attributes -/
def Complete (m : Mod) : Prop := m.factory = true ∧ m.info ≠ none

/-- all modules have both attributes -/
structure Tidy (W : World) (ops : List Op) : Prop where
  repos : ∀ repo k m, W.load repo k = some m → Complete m
  calls : ∀ k m, Op.register k m ∈ ops → Complete m

end Verif.Registry
