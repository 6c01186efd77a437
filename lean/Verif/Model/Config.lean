import Mathlib.Data.Nat.Notation
/-
Model of `conmech/helpers/config.py`. Strings are lists of characters. A file system says for every path
whether there is a file or a directory; permissions, links and changes of the working directory are left
out.
-/
namespace Conmech

/-- The components of a path between slashes. -/
def splitSlash : List Char → List (List Char)
  | [] => [[]]
  | c :: rest =>
    if c = '/' then [] :: splitSlash rest
    else match splitSlash rest with
      | head :: tail => (c :: head) :: tail
      | [] => [[c]]

/-- A `pathlib.Path`. -/
structure FilePath where
  absolute : Bool
  parts : List (List Char)
deriving DecidableEq, Repr

/-- `pathlib.Path(s)`: empty components and dots are removed. -/
def FilePath.ofString (s : List Char) : FilePath where
  absolute := s.head? = some '/'
  parts := (splitSlash s).filter fun p => p ≠ [] ∧ p ≠ ['.']

/-- `p / q`: an absolute path on the right wins. -/
def FilePath.join (p q : FilePath) : FilePath :=
  if q.absolute then q else { absolute := p.absolute, parts := p.parts ++ q.parts }

/-- What there is at a path. -/
inductive FileKind where
  | file | directory
deriving DecidableEq, Repr

/-- A file system. -/
abbrev FileSystem := FilePath → Option FileKind

/-- `p` is `q` or above `q`. -/
def FilePath.above (p q : FilePath) : Bool := p.absolute = q.absolute && p.parts.isPrefixOf q.parts

/-- The exceptions of this module. -/
inductive ConfigError where
  | valueError | fileExists
deriving DecidableEq, Repr

/-- `path.mkdir(parents=True, exist_ok=True)`: an error if there is a file at the path or above. -/
def mkdirs (fs : FileSystem) (path : FilePath) : Except ConfigError FileSystem :=
  if (List.range (path.parts.length + 1)).any fun k =>
    fs { path with parts := path.parts.take k } = some .file then .error .fileExists
  else .ok fun p => if p.above path then some .directory else fs p

/-- `Config`, `conmech/helpers/config.py:7-20`. -/
structure Config where
  shows : Bool
  save : Bool
  force : Bool
  test : Bool
  outputsPath : List Char
  outputDir : Option (List Char)
  shell : Bool
  timestamp : ℕ
deriving DecidableEq, Repr

/-- The arguments that a user gives. -/
structure ConfigArgs where
  shows : Option Bool := none
  save : Option Bool := none
  force : Option Bool := none
  test : Option Bool := none
  outputsPath : Option (List Char) := none
  outputDir : Option (List Char) := none
  shell : Option Bool := none
  timestamp : Option ℕ := none

/-- `Config(**args)` at time `now` in a process that loaded the module at time `loaded`: the default
of `timestamp` is evaluated when the class is defined, `conmech/helpers/config.py:13-20`. -/
def Config.new (loaded _now : ℕ) (a : ConfigArgs) : Config where
  shows := a.shows.getD true
  save := a.save.getD false
  force := a.force.getD true
  test := a.test.getD false
  outputsPath := a.outputsPath.getD "./output".toList
  outputDir := a.outputDir
  shell := a.shell.getD false
  timestamp := a.timestamp.getD loaded

/-- `self.output_dir or str(self.timestamp)`, `conmech/helpers/config.py:35`. -/
def Config.directory (c : Config) : List Char :=
  match c.outputDir with
  | some d => if d = [] then Nat.toDigits 10 c.timestamp else d
  | none => Nat.toDigits 10 c.timestamp

/-- `Config.path`, `conmech/helpers/config.py:33-36`. -/
def Config.path (c : Config) : FilePath :=
  (FilePath.ofString c.outputsPath).join (FilePath.ofString c.directory)

/-- `Config.init`, `conmech/helpers/config.py:22-31`. -/
def Config.init (c : Config) (fs : FileSystem) : Except ConfigError (FileSystem × Config) :=
  if c.shows && c.save then .error .valueError
  else match mkdirs fs c.path with
    | .ok fs => .ok (fs, c)
    | .error e => .error e

end Conmech
