import Mathlib.Data.Real.Basic
import Mathlib.Data.List.Basic

/-!
# Support code

Model of `/repo/openms/lib/backend.py` (`set_backend`), `/repo/openms/lib/logger.py`,
`/repo/openms/__config__.py` (`Config`), `/repo/openms/solvers/linalg.py` (`davidson`,
`make_diag_precond`) and the electron counts of `/repo/openms/qmc/trial.py` (`TrialWFBase`).
-/

namespace OpenMS.Support

/-! ### Backend -/

/-- The libraries whose attributes are looked up (`getattr(numpy, dtype)`, `getattr(torch, dtype)`). -/
inductive Lib | numpy | torch
  deriving DecidableEq

/-- The classes the backend object can get. -/
inductive Cls | numpy | torch | torchCuda | tiledArray
  deriving DecidableEq

/-- `backend.py` L69-101: what is installed, and which names the libraries have as attributes. -/
structure Env where
  torch : Bool
  cuda : Bool
  tiledArray : Bool
  attr : Lib → List Char → Bool

/-- The backend object: its class and its `float`, an attribute of one of the libraries. -/
structure Backend where
  cls : Cls
  float : Lib × List Char
  deriving DecidableEq

/-- `backend.__class__ = cls; backend.float = getattr(lib, dtype)`: the class is changed before the
attribute is looked up. -/
def install (env : Env) (cls : Cls) (lib : Lib) (dtype : List Char) (s : Backend) :
    Backend × Except String Unit :=
  if env.attr lib dtype then (⟨cls, lib, dtype⟩, .ok ()) else ({ s with cls := cls }, .error "AttributeError")

/-- `backend.py` L475-487: library, device and dtype of a name; `none` is `ValueError`.  The number
of dots and the pieces are both taken from the list of pieces. -/
def parseName (name : List Char) : Option (List Char × List Char × List Char) :=
  match name.splitOn '.' with
  | [n] => some (n, "cpu".toList, "float64".toList)
  | [n, d] => if d = "cuda".toList then some (n, "cuda".toList, "float64".toList) else some (n, "cpu".toList, d)
  | [n, dev, d] => some (n, dev, d)
  | _ => none

/-- `backend.py` L489-529: the part of `set_backend` after the name is taken apart.  `CupyBackend` is
not defined anywhere, so that branch is `NameError`. -/
def select (env : Env) (n device dtype : List Char) (s : Backend) : Backend × Except String Unit :=
  if n = "numpy".toList then
    if device = "cpu".toList then install env .numpy .numpy dtype s else (s, .error "ValueError")
  else if n = "cupy".toList then (s, .error "NameError")
  else if n = "torch".toList then
    if device = "cpu".toList then install env .torch .torch dtype s
    else if device = "cuda".toList then install env .torchCuda .torch dtype s
    else (s, .error "ValueError")
  else if n = "TiledArray".toList then
    if device = "cpu".toList then ({ s with cls := .tiledArray }, .ok ()) else (s, .error "ValueError")
  else (s, .error "ValueError")

/-- `backend.py` L435-529: `set_backend`. -/
def setBackend (env : Env) (name : List Char) (s : Backend) : Backend × Except String Unit :=
  if "torch".toList <+: name ∧ env.torch = false then (s, .error "RuntimeError")
  else if "torch.cuda".toList <+: name ∧ env.cuda = false then (s, .error "RuntimeError")
  else if "TiledArray".toList <+: name ∧ env.tiledArray = false then (s, .error "RuntimeError")
  else
    match parseName name with
    | none => (s, .error "ValueError")
    | some (n, device, dtype) => select env n device dtype s

/-! ### Logger -/

/-- `logger.py` L37-47: the names the module defines. -/
def levelName : String → Option ℕ
  | "VERBOSE_DEBUG" => some 5
  | "VERBOSE_INFO" => some 4
  | "VERBOSE_NOTICE" => some 3
  | "VERBOSE_WARN" => some 2
  | "VERBOSE_ERR" => some 1
  | "VERBOSE_QUIET" => some 0
  | "DEBUG4" => some 9
  | "DEBUG3" => some 8
  | "DEBUG2" => some 7
  | "DEBUG1" => some 6
  | _ => none

/-- The module-level message functions. -/
inductive Kind | log | error | warn | info | note | debug | debug1 | debug2 | debug3 | debug4
  deriving DecidableEq

/-- `logger.py` L58-103: the name each function compares the verbosity with. -/
def Kind.threshold : Kind → String
  | .log => "VERBOSE_QUIET"
  | .error => "VERBOSE_ERROR"
  | .warn => "VERBOSE_WARN"
  | .info => "VERBOSE_INFO"
  | .note => "VERBOSE_NOTICE"
  | .debug => "VERBOSE_DEBUG"
  | .debug1 => "VERBOSE_DEBUG1"
  | .debug2 => "VERBOSE_DEBUG2"
  | .debug3 => "VERBOSE_DEBUG3"
  | .debug4 => "VERBOSE_DEBUG4"

/-- `logger.py` L52-103: is the message written to `rec.stdout` (on rank 0 only)?  An undefined name
is `NameError`; the copies written to `sys.stderr` are left out. -/
def emit (rank : ℕ) (verbose : ℤ) (k : Kind) : Except String Bool :=
  match levelName k.threshold with
  | none => .error "NameError"
  | some t => .ok (rank = 0 ∧ (if k = .log then (t : ℤ) < verbose else (t : ℤ) ≤ verbose))

/-- `logger.py` L138-146: `Logger.log_levels`. -/
def classLevel : String → Option ℕ
  | "QUIET" => some 0
  | "CRITICAL" => some 5
  | "INFO" => some 10
  | "ERROR" => some 15
  | "WARNING" => some 20
  | "DEBUG" => some 25
  | "DEBUGALL" => some 30
  | _ => none

/-- `logger.py` L163-189: a `Logger` method whose own level is `level`. -/
def classEmit (verbose level : String) : Except String Bool :=
  match classLevel verbose, classLevel level with
  | some v, some l => .ok (l ≤ v)
  | _, _ => .error "KeyError"

/-! ### Configuration -/

/-- `__config__.py` L92-117: `Config.options`; values may be `None`. -/
def Options (V : Type*) := String → Option (Option V)

/-- The calls that change or read a `Config`. -/
inductive Op (V : Type*)
  | add (key : String) (val : Option V)
  | update (key : String) (val : Option V)

/-- `__config__.py` L89-90: the options of a fresh `Config`. -/
def Options.empty {V : Type*} : Options V := fun _ => none

/-- `self.options[key] = val`. -/
def Options.set {V : Type*} (o : Options V) (key : String) (val : Option V) : Options V :=
  fun k => if k = key then some val else o k

/-- `__config__.py` L99-109: `get_option`; `dict.get` gives `None` for a missing key. -/
def getOption {V : Type*} (o : Options V) (key : String) : Except String V :=
  match (o key).join with
  | none => .error "KeyError"
  | some v => .ok v

/-- `__config__.py` L93-104: `add_option` and `update_option`; a call that raises changes nothing. -/
def step {V : Type*} (o : Options V) : Op V → Options V × Except String Unit
  | .add k v => (o.set k v, .ok ())
  | .update k v =>
    match (o k).join with
    | none => (o, .error "KeyError")
    | some _ => (o.set k v, .ok ())

/-- A history of calls on a fresh `Config`, each caught by its caller. -/
def runOps {V : Type*} (ops : List (Op V)) : Options V :=
  ops.foldl (fun o op => (step o op).1) Options.empty

/-! ### Davidson -/

/-- `linalg.py` L520-523: one element of the preconditioned vector. -/
noncomputable def precond (levelShift diag e dx : ℝ) : ℝ :=
  let d := diag - (e - levelShift)
  dx / (if |d| < 1e-8 then 1e-8 else d)

/-- A module's top-level definitions, in order; a later one replaces an earlier one of the same
name. -/
def lookupLast {α : Type*} (defs : List (String × α)) (name : String) : Option α :=
  ((defs.filter fun d => d.1 == name).getLast?).map Prod.snd

/-- `linalg.py` L178 and L528: the two definitions of `davidson1`; the first is any function that
returns convergence flags, eigenvalues and vectors, the second is `pass`. -/
def davidsonDefs {I R : Type*} (real : I → R) : List (String × (I → Option R)) :=
  [("davidson1", fun i => some (real i)), ("make_diag_precond", fun _ => none), ("davidson1", fun _ => none)]

/-- `linalg.py` L155-175: `davidson`; slicing `None` is `TypeError`. -/
def davidson {I R : Type*} (real : I → R) (i : I) : Except String R :=
  match lookupLast (davidsonDefs real) "davidson1" with
  | none => .error "NameError"
  | some f => match f i with
    | none => .error "TypeError"
    | some r => .ok r

/-! ### Electron counts -/

/-- `trial.py` L661-672: `nalpha` and `nbeta`; `//` rounds down. -/
def electronCounts (nelec spin : ℤ) : Except String (ℤ × ℤ) :=
  let nalpha := (nelec + spin).fdiv 2
  let nbeta := nalpha - spin
  if ¬ (0 ≤ nalpha ∧ 0 ≤ nbeta) then .error "AssertionError"
  else if nalpha + nbeta ≠ nelec then .error "RuntimeError"
  else .ok (nalpha, nbeta)

end OpenMS.Support
