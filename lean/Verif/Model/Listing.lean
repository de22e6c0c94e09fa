import Verif.Model.Launch
import Verif.Model.Facility
import Mathlib.Data.List.Dedup
/-!
Lists of components and the command `mcvine component`: `packages/mcni/python/mcni/_component_listing.py`,
`packages/legacycomponents/mcstas2/python/mcstas2/__init__.py` and `packages/mcvine/python/mcvine/cli/component.py`.

`uniquelist` (`mcni/utils/__init__.py:14-15`) is `list(set(l))`, whose order is not determined; the model keeps the order of `List.dedup`.
-/

namespace Verif.Listing

open Launch (Supplier)

/-! ### McStas -/

/-- the directory of the components: its entries, with whether they are directories, and the entries of a category, with whether they are files, as used in
`mcstas2/__init__.py:147-166` -/
structure Library where
  items : List (String × Bool)
  files : String → List (String × Bool)

/-- `item.startswith('.')`, `mcstas2/__init__.py:153, 164` -/
def hidden (n : String) : Bool := n.toList.head? == some '.'

/-- `listalldefaultcomponentcategories`, `mcstas2/__init__.py:147-154` -/
def defaultCategories (L : Library) : List String :=
  (L.items.filter fun i => !hidden i.1 && !(["CVS", "data"].contains i.1) && i.2).map Prod.fst

/-- `item[: -len(postfix)]` of an item with the postfix, `mcstas2/__init__.py:163-166` -/
def stem (n : String) : Option String :=
  if ".comp".toList.isSuffixOf n.toList then some (String.ofList (n.toList.take (n.toList.length - 5))) else none

/-- `listdefaultcomponentsincategory` of a category that is there, `mcstas2/__init__.py:157-166` -/
def defaultComponents (L : Library) (category : String) : List String :=
  ((L.files category).filter fun i => !hidden i.1 && !(["CVS"].contains i.1) && i.2).filterMap fun i => stem i.1

/-- `registeredComponentsInCategory`, `mcstas2/components/__init__.py:24-26`, for a registry as a list of categories with their types -/
def registeredIn (r : List (String × List String)) (category : String) : List String := (r.lookup category).getD []

/-- `listallcomponentcategories`, `mcstas2/__init__.py:120-125` -/
def mcstasCategories (L : Library) (r : List (String × List String)) : List String := (defaultCategories L ++ r.map Prod.fst).dedup

/-- `listcomponentsincategory`, `mcstas2/__init__.py:128-137`; `r` is the registry after `importallcomponents` -/
def mcstasTypes (L : Library) (r : List (String × List String)) (category : String) : List String :=
  if category ∉ defaultCategories L then [] else (defaultComponents L category ++ registeredIn r category).dedup

/-- the supplier `mcstas2`, `mcvine/component_suppliers.py:33-34`, once all components are imported (before that the categories of the registry are those of the components that were used) -/
def mcstas (L : Library) (r : List (String × List String)) : Supplier := ⟨mcstasCategories L r, mcstasTypes L r⟩

/-! ### all suppliers -/

/-- `listallcomponentcategories`, `_component_listing.py:18-25` -/
def allCategories (all : List (String × Supplier)) : List String := (all.flatMap fun s => s.2.categories).dedup

/-- `listcomponentsincategory`, `_component_listing.py:28-37` -/
def componentsIn (all : List (String × Supplier)) (category : String) : List (String × String) :=
  all.flatMap fun s => if category ∉ s.2.categories then [] else (s.2.types category).map fun t => (t, s.1)

/-- `list`, `cli/component.py:100-143`: what is printed, as categories with their components and suppliers; an empty option is no option; `sys.exit(1)` is a `RuntimeError` -/
def list (all : List (String × Supplier)) (category supplier : String) : Except Err (List (String × List (String × String))) :=
  if supplier ≠ "" then
    match all.lookup supplier with
    | none => .error .runtimeError
    | some s =>
      if category ≠ "" then .ok [(category, (s.types category).map fun t => (t, supplier))]
      else .ok (s.categories.map fun c => (c, (s.types c).map fun t => (t, supplier)))
  else if category ≠ "" then .ok [(category, componentsIn all category)]
  else .ok ((allCategories all).map fun c => (c, componentsIn all c))

/-! ### the specifier -/

/-- the arguments, `cli/component.py:57-59`: an empty text has none -/
def argsOf (text : List Char) : List (List Char) := if text = [] then [] else Facility.splitAll ',' text

/-- `_getSpecifier`, `cli/component.py:77-83` -/
def specifier (type : String) (args : List (List Char)) : List Char :=
  type.toList ++ if args = [] then [] else '(' :: (Facility.join args ++ [')'])

/-- the component that `info` describes, and the specifier that it prints, `cli/component.py:55-76` with `mcvine/pyre_support/__init__.py:18-36` -/
def info (all : List (String × Supplier)) (type : String) (args : List Char) (category supplier : Option String) :
    Except Err ((String × String × String) × List (List Char) × List Char) :=
  match Launch.find all type category supplier with
  | .error e => .error e
  | .ok none => .error .runtimeError
  | .ok (some r) => .ok (r, argsOf args, specifier type (argsOf args))

/-- the component and the arguments for a specifier, `NeutronComponentFacility.py:65-71` with `mcni/pyre_support/__init__.py:33-40` -/
def use (all : List (String × Supplier)) (s : List Char) : Except Err ((String × String × String) × Option (List (List Char))) :=
  match Facility.decode s with
  | .error e => .error e
  | .ok d =>
    match Launch.find all (String.ofList d.type) (d.category.map String.ofList) (d.supplier.map String.ofList) with
    | .error e => .error e
    | .ok none => .error .runtimeError
    | .ok (some r) => .ok (r, d.args)

end Verif.Listing
