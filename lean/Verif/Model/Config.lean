import Verif.Model.Outcome
import Mathlib.Data.Nat.Digits.Defs
/-!
# Configurations

`DMI/src/ConfigMgr.cc`, `OCTOPUSSY/src/OctopussyConfig.cc`: settings read from files and the command line, written to files, and options.

Simplifications: text is a list of bytes; the map from names to values is a list of pairs with different names, in order of insertion and not
of names; the file system is a function from names of files; files do not fail while being read or written; the count of settings read
is left out.
-/
namespace Verif.Config

/-- The map (ConfigMgr.h:103-114). -/
def find (c : List (List Nat × List Nat)) (n : List Nat) : Option (List Nat) := (c.find? (fun p => decide (p.1 = n))).map (·.2)

/-- `config_[name] = value` (ConfigMgr.cc:143, 202, 242). -/
def put : List (List Nat × List Nat) → List Nat → List Nat → List (List Nat × List Nat)
  | [], n, v => [(n, v)]
  | (m, w) :: r, n, v => if m = n then (n, v) :: r else (m, w) :: put r n v

/-- `remove` (ConfigMgr.cc:246-255). -/
def remove (c : List (List Nat × List Nat)) (n : List Nat) : List (List Nat × List Nat) := c.filter (fun p => decide (p.1 ≠ n))

/-- `if( override || config_.find(name) == config_.end() ) config_[name] = value` (ConfigMgr.cc:140-144, 200-206). -/
def merge1 (override : Bool) (c : List (List Nat × List Nat)) (n v : List Nat) : List (List Nat × List Nat) :=
  if override ∨ find c n = none then put c n v else c

/-- `merge` of another configuration (ConfigMgr.cc:152-162): `insert` leaves a setting that is there alone. -/
def mergeOther (override : Bool) (c : List (List Nat × List Nat)) : List (List Nat × List Nat) → List (List Nat × List Nat)
  | [] => c
  | (n, v) :: r =>
    mergeOther override (if override ∨ find c n = none then (if find c n = none then put c n v else c) else c) r

/-- What C sees of a string: up to the first zero. -/
def cstr (s : List Nat) : List Nat := s.takeWhile (· ≠ 0)

/-- `isspace` in the C locale; bytes above 127, which are negative as `char`, are taken as not white space. -/
def isSpace (c : Nat) : Bool := c = 32 ∨ (9 ≤ c ∧ c ≤ 13)

/-- What `fgets` reads, call by call, into 1024 bytes (ConfigMgr.cc:111-116): up to the end of a line, or 1023 bytes.  `k` is the room left. -/
def chunks (k : Nat) (acc : List Nat) : List Nat → List (List Nat)
  | [] => if acc = [] then [] else [acc]
  | c :: f =>
    if c = 10 then (acc ++ [c]) :: chunks 1023 [] f
    else if k = 1 then (acc ++ [c]) :: chunks 1023 [] f
    else chunks (k - 1) (acc ++ [c]) f

/-- One line (ConfigMgr.cc:117-137): the name and the value in it, if any. -/
def parse (chunk : List Nat) : Option (List Nat × List Nat) :=
  let s := cstr chunk
  if s = [] then none
  else
    let s := if s.getLast? = some 10 then s.dropLast else s
    let s0 := s.dropWhile isSpace
    if s0 = [] ∨ s0.head? = some 35 then none
    else if 32 ∈ s0 then some (s0.takeWhile (· ≠ 32), ((s0.dropWhile (· ≠ 32)).tail).dropWhile isSpace)
    else none

/-- `merge` of a file (ConfigMgr.cc:96-149). -/
def mergeFile (override : Bool) (c : List (List Nat × List Nat)) (file : List Nat) : List (List Nat × List Nat) :=
  (chunks 1023 [] file).foldl (fun c l => match parse l with | none => c | some p => merge1 override c p.1 p.2) c

/-- `load` (ConfigMgr.cc:61-65). -/
def load (file : List Nat) : List (List Nat × List Nat) := mergeFile true [] file

/-- "# configuration saved on ". -/
def banner : List Nat := [35, 32, 99, 111, 110, 102, 105, 103, 117, 114, 97, 116, 105, 111, 110, 32, 115, 97, 118, 101, 100, 32, 111, 110, 32]

/-- `save` (ConfigMgr.cc:68-93); `date` is what `ctime` gives, without the end of line. -/
def save (date : List Nat) (c : List (List Nat × List Nat)) : List Nat :=
  banner ++ date ++ [10, 10] ++ c.flatMap (fun p => cstr p.1 ++ [32] ++ cstr p.2 ++ [10])

/-- `mergeLine` (ConfigMgr.cc:191-207): a setting from the command line. -/
def mergeLine (override : Bool) (c : List (List Nat × List Nat)) (s : List Nat) : List (List Nat × List Nat) :=
  if s.head? = some 45 then c
  else if 61 ∈ s then merge1 override c (s.takeWhile (· ≠ 61)) ((s.dropWhile (· ≠ 61)).tail)
  else c

/-- `merge` of several (ConfigMgr.cc:165-188). -/
def mergeLines (override : Bool) (c : List (List Nat × List Nat)) (a : List (List Nat)) : List (List Nat × List Nat) :=
  a.foldl (mergeLine override) c

/-- `sprintf("%d")`. -/
def showInt (v : Int) : List Nat :=
  (if v < 0 then [45] else []) ++ (if v = 0 then [48] else (Nat.digits 10 v.natAbs).reverse.map (· + 48))

/-- `set` of an integer (ConfigMgr.cc:232-243). -/
def setInt (c : List (List Nat × List Nat)) (n : List Nat) (v : Int) : List (List Nat × List Nat) := put c n (showInt v)

/-- `atoi`, of numbers of 32 bits; others are undefined. -/
def atoi (s : List Nat) : Res Int :=
  let s := (cstr s).dropWhile isSpace
  let neg := s.head? = some 45
  let s := if s.head? = some 45 ∨ s.head? = some 43 then s.tail else s
  let n : Nat := (s.takeWhile (fun c => decide (48 ≤ c ∧ c ≤ 57))).foldl (fun a c => a * 10 + (c - 48)) 0
  let v : Int := if neg then -(n : Int) else n
  if -2147483648 ≤ v ∧ v ≤ 2147483647 then .ok v else .ub

/-- `get` of an integer (ConfigMgr.cc:210-217): `none` if there is no such setting. -/
def getInt (c : List (List Nat × List Nat)) (n : List Nat) : Res (Option Int) :=
  match find c n with
  | none => .ok none
  | some s => do
    let v ← atoi s
    .ok (some v)

/-- ".conf" and "octopussy.conf". -/
def dotConf : List Nat := [46, 99, 111, 110, 102]
def octopussyConf : List Nat := [111, 99, 116, 111, 112, 117, 115, 115, 121] ++ dotConf

/-- The last argument that ends in ".conf" (OctopussyConfig.cc:53-60). -/
def localFile (args : List (List Nat)) : List Nat :=
  args.foldl (fun f a => if a.length > 5 ∧ a.drop (a.length - 5) = dotConf then a else f) []

/-- The name of the program: what follows the last slash (OctopussyConfig.cc:78-88). -/
def appName (path : List Nat) : List Nat := (path.reverse.takeWhile (· ≠ 47)).reverse

/-- The names of the files, in order (OctopussyConfig.cc:49-50, 62-101). -/
def fileNames (dir host : List Nat) (args : List (List Nat)) : List (List Nat) :=
  let d := if dir.getLast? = some 47 then dir else dir ++ [47]
  let hostfile := host.takeWhile (· ≠ 46) ++ dotConf
  let prog := match args with
    | [] => []
    | a :: _ => [appName a ++ dotConf]
  let names := [octopussyConf, hostfile] ++ prog
  names.map (d ++ ·) ++ names ++ (if localFile args = [] then [] else [localFile args])

/-- `OctopussyConfig::init` (OctopussyConfig.cc:47-111): files that cannot be opened are passed over. -/
def init (dir host : List Nat) (fs : List Nat → Option (List Nat)) (args : List (List Nat)) : List (List Nat × List Nat) :=
  let c := (fileNames dir host args).foldl (fun c f => match fs f with | none => c | some t => mergeFile true c t) []
  mergeLines true c args

/-- `getOption` (OctopussyConfig.cc:128-149). -/
def getOption (args : List (List Nat)) (name : List Nat) : Option (List Nat) :=
  let name := if name.head? = some 45 then name else 45 :: name
  go name args.tail
where
  go (name : List Nat) : List (List Nat) → Option (List Nat)
    | [] => none
    | a :: r =>
      if a.take name.length = name then
        some (if a.length > name.length then a.drop name.length else match r with | b :: _ => b | [] => [])
      else go name r

end Verif.Config
