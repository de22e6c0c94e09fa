import Verif.Model.Base
/-!
Asking an application for help: `packages/mcni/python/mcni/pyre_support/AppInitMixin.py`, `ComponentInitMixin.py`,
`packages/mcni/python/mcni/pyre_support/Instrument.py` and `MpiAppBase.py`.
-/

namespace Verif.Help

/-- a component: whether one of `usage`, `showProperties`, `showComponents`, `showCurator` is given (`AppInitMixin.py:56-61`), the flag
`_showHelpOnly`, whether it is a neutron component (`CompositeNeutronComponentMixin.py:26`), and its components -/
inductive Comp where
  | mk (asked flag neutron : Bool) (subs : List Comp)

/-- `component.components()`, `AppInitMixin.py:39,49` -/
def Comp.subs : Comp → List Comp
  | .mk _ _ _ s => s

/-- `_requestedForHelp`, `AppInitMixin.py:56-61` -/
def Comp.asked : Comp → Bool
  | .mk a _ _ _ => a

/-- `_showHelpOnly`, `AppInitMixin.py:25` -/
def Comp.flag : Comp → Bool
  | .mk _ f _ _ => f

/-- an assignment to `_showHelpOnly`, `AppInitMixin.py:38`, `Instrument.py:308,327` -/
def Comp.set (f : Bool) : Comp → Comp
  | .mk a _ n s => .mk a f n s

mutual

/-- `_requestedForHelp_r`, `AppInitMixin.py:45-53` -/
def requested : Comp → Bool
  | .mk a _ _ s => if a then true else requestedAny s

/-- the loop of `_requestedForHelp_r`, `AppInitMixin.py:49-53` -/
def requestedAny : List Comp → Bool
  | [] => false
  | c :: cs => if requested c then true else requestedAny cs

end

mutual

/-- `_setShowHelpOnly_r`, `AppInitMixin.py:36-42` -/
def setAll : Comp → Comp
  | .mk a _ n s => .mk a true n (setList s)

/-- the loop of `_setShowHelpOnly_r`, `AppInitMixin.py:39-41` -/
def setList : List Comp → List Comp
  | [] => []
  | c :: cs => setAll c :: setList cs

end

/-- `_init_before_my_inventory` of applications, `AppInitMixin.py:22-30` -/
def beforeInventory (app : Comp) : Comp :=
  if app.flag || requested app then setAll app else app

/-- `mode`, `MpiAppBase.py:19-20` -/
inductive Mode where
  | server
  | worker
  deriving DecidableEq

/-- the last part of `_init_before_my_inventory` of an instrument, `Instrument.py:287-308`: on the server the neutron components are told
not to start -/
def tellNeutrons (mode : Mode) : Comp → Comp
  | .mk a f n s => .mk a f n (match mode with
    | .server => s.map fun
      | .mk a' f' n' s' => .mk a' (f' || n') n' s'
    | .worker => s)

/-- `inventory.init()`, `ComponentInitMixin.py:27`. Simplification: of what pyre does only the effect named in `Instrument.py:315-319` is
modelled, that the flag of the application is set if that of a component is -/
def initInventory : Comp → Comp
  | .mk a f n s => .mk a (f || s.any Comp.flag) n s

/-- `init`, `ComponentInitMixin.py:20-32`, with `_init` of instruments, `Instrument.py:312-328` -/
def init (mode : Mode) (app : Comp) : Comp :=
  let app := initInventory (tellNeutrons mode (beforeInventory app))
  if mode = .server then app.set false else app

/-- what an application does after `init`, `MpiAppBase.py:24-32` -/
inductive Action where
  | help
  | simulate
  | launch
  deriving DecidableEq

/-- `execute`, `MpiAppBase.py:24-32`. Simplification: of the method `run` of pyre only the rule is modelled that `execute` is not called with
the flag set. -/
def act (mode : Mode) (app : Comp) : Action :=
  if (init mode app).flag then .help else if mode = .worker then .simulate else .launch

end Verif.Help
