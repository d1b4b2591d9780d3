import Mathlib.Data.Rat.Defs
import Mathlib.Data.List.Basic

/-!
# Walker options

Model of the option handling in `QMCbase.__init__` (`/repo/openms/qmc/qmc.py` L355-366), of the
module-level dictionary `default_walker_options` (`/repo/openms/qmc/generic_walkers.py`
L39-43), and of the options read by `BaseWalkers.__init__` (L58-105).
-/

namespace OpenMS.Options

/-- A dictionary with string keys and numeric values. -/
abbrev Dict := String → Option ℚ

/-- `d[k] = v`. -/
def Dict.set (d : Dict) (k : String) (v : ℚ) : Dict := fun k' => if k' = k then some v else d k'

/-- `d.update(kv)`. -/
def Dict.update (d : Dict) (kv : List (String × ℚ)) : Dict :=
  kv.foldl (fun d p => d.set p.1 p.2) d

/-- `generic_walkers.py` L39-43. -/
def defaultWalkerOptions : Dict := fun k =>
  if k = "nwalkers" then some 100
  else if k = "weight_min" then some (1 / 10)
  else if k = "weight_max" then some 10
  else none

/-- The two arguments of `QMCbase.__init__` that concern walkers; `num_walkers` has the default
100, so `none` means that the caller passed `None`. -/
structure Args where
  walkerOptions : Option (List (String × ℚ))
  numWalkers : Option ℚ

/-- `qmc.py` L355-362.  `self.walker_options = gwalker.default_walker_options` binds the module
dictionary itself, so the updates change the module state: the result is both the new module
dictionary and the options of the new object. -/
def construct (module : Dict) (a : Args) : Dict :=
  let d := match a.walkerOptions with
    | none => module
    | some kv => Dict.update module kv
  match a.numWalkers with
  | none => d
  | some n => Dict.set d "nwalkers" n

/-- The module dictionary after a history of constructions in one Python process. -/
def afterHistory (h : List Args) : Dict := h.foldl construct defaultWalkerOptions

/-- The options seen by object number `i` of a history at the end of the history: all objects
share the module dictionary. -/
def optionsAtEnd (h : List Args) (_i : ℕ) : Dict := afterHistory h

/-- `generic_walkers.py` L81, L101-102: number of walkers and weight bounds of the walkers
object built from an option dictionary. -/
def walkerParams (d : Dict) : ℚ × ℚ × ℚ := ((d "nwalkers").getD 100, 1 / 10, 10)

end OpenMS.Options
