import Mathlib.Data.List.Basic

/-!
# Model of the search for the strategies file (fplll/bkz_param.cpp:39-54, :80-88, main.cpp:129-132)

The file system is a function that does not change during the call.  The parser (C100, C101) is an arbitrary function of the bytes; reading
from a directory fails, as with libstdc++ (the stream throws).
-/

namespace Fplll
namespace StratPath

/-- what is found under a path -/
inductive Node
  | missing
  | dir
  | file (bytes : List ℕ)
  deriving DecidableEq

/-- `std::ifstream(path).good()`: files can be opened, and, on POSIX systems (`posix`), directories too -/
def opens (posix : Bool) : Node → Bool
  | .missing => false
  | .dir => posix
  | .file _ => true

/-- `strategy_full_path`, bkz_param.cpp:45-54; `dflt` is `default_strategy_path()`, paths are lists of characters -/
def fullPath (posix : Bool) (fs : List Char → Node) (dflt path : List Char) : List Char :=
  if opens posix (fs path) = true then path
  else if opens posix (fs (dflt ++ '/' :: path)) = true then dflt ++ '/' :: path
  else []

/-- result of loading -/
inductive Out (S : Type)
  /-- `throw std::runtime_error("Cannot open strategies file.")` -/
  | cannotOpen
  /-- another exception: from the stream or from the parser -/
  | readError
  | loaded (s : S)
  deriving DecidableEq

/-- `load_strategies_json`, bkz_param.cpp:80-88, with the rest of the function as part of `parse` -/
def load {S : Type} (parse : List ℕ → Option S) (posix : Bool) (fs : List Char → Node) (dflt filename : List Char) : Out S :=
  if opens posix (fs (fullPath posix fs dflt filename)) = true then
    match fs (fullPath posix fs dflt filename) with
    | .file c => (parse c).elim .readError .loaded
    | _ => .readError
  else .cannotOpen

/-- `load_strategies_json(strategy_full_path(o.bkz_strategy_file))`, main.cpp:131; `none`: no file is named, nothing is loaded -/
def mainLoad {S : Type} (parse : List ℕ → Option S) (posix : Bool) (fs : List Char → Node) (dflt option : List Char) : Option (Out S) :=
  if option = [] then none else some (load parse posix fs dflt (fullPath posix fs dflt option))

end StratPath
end Fplll
