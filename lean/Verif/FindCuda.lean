import Mathlib.Data.List.Basic
import Mathlib.Tactic.Ring

/-!
# Looking for the CUDA installation (`custom_ops/gpu/find_cuda_config.py`)

Strings are lists of characters, the file system is a parameter.  Not modelled: Windows and macOS, the
output of `nvcc --version`, the list of `ldconfig`, `os.path` (paths are opaque), digits and blanks outside ASCII.
-/

namespace PC

/-- A Python string. -/
abbrev PyStr := List Char

/-- `ConfigError`, or the `ValueError` of `int("")`. -/
inductive CfgErr
  | config | value
  deriving DecidableEq

/-- `s.strip()`. -/
def pyStrip (s : PyStr) : PyStr := ((s.dropWhile Char.isWhitespace).reverse.dropWhile Char.isWhitespace).reverse

/-- `_matches_version` (find_cuda_config.py:88-111). -/
def matchesVersion (actual : Option PyStr) (required : PyStr) : Bool :=
  match actual with
  | none => false
  | some a => (pyStrip required).isPrefixOf (pyStrip a)

/-- `s.split(c)` for a single character. -/
def charSplit (c : Char) : PyStr → List PyStr
  | [] => [[]]
  | x :: xs =>
    if x = c then [] :: charSplit c xs
    else match charSplit c xs with
      | [] => [[x]]
      | w :: ws => (x :: w) :: ws

/-- `int(s)` for strings of digits; `none` stands for the `ValueError` of other strings (signs, blanks and
underscores, which `int` accepts, do not occur). -/
def pyInt (s : PyStr) : Option ℕ :=
  if s = [] ∨ ¬ s.all Char.isDigit then none else some (s.foldl (fun n c => 10 * n + (c.toNat - 48)) 0)

/-- `actual >= required` for lists of integers. -/
def listGe : List ℕ → List ℕ → Bool
  | _, [] => true
  | [], _ :: _ => false
  | a :: as, b :: bs => if a = b then listGe as bs else decide (b < a)

/-- `_at_least_version` (find_cuda_config.py:115-118). -/
def atLeastVersion (actual required : PyStr) : Except CfgErr Bool :=
  match (charSplit '.' actual).mapM pyInt, (charSplit '.' required).mapM pyInt with
  | some a, some r => .ok (listGe a r)
  | _, _ => .error .value

/-- The group of the match of `"#define NAME +(\d+)"` with a line (find_cuda_config.py:124-126). -/
def matchDefine (name line : PyStr) : Option PyStr :=
  if ("#define ".toList ++ name).isPrefixOf line then
    let rest := line.drop ("#define ".toList ++ name).length
    let ds := (rest.dropWhile (· = ' ')).takeWhile Char.isDigit
    if rest.head? ≠ some ' ' ∨ ds = [] then none else some ds
  else none

/-- `_get_header_version` (find_cuda_config.py:121-127): the first match of the lines of a file. -/
def headerVersion (lines : List PyStr) (name : PyStr) : PyStr := (lines.findSome? (matchDefine name)).getD []

/-- `"%d" % n`. -/
def decStr (n : ℕ) : PyStr :=
  if n < 10 then [Char.ofNat (48 + n)] else decStr (n / 10) ++ [Char.ofNat (48 + n % 10)]

/-- `"%d.%d" % (version // 1000, version % 1000 // 10)` (find_cuda_config.py:247). -/
def cudaVersionStr (v : ℕ) : PyStr := decStr (v / 1000) ++ '.' :: decStr (v % 1000 / 10)

/-- `get_header_version` of `_find_cuda_config` (find_cuda_config.py:243-247). -/
def cudaHeaderVersion (lines : List PyStr) : Except CfgErr (Option PyStr) :=
  match pyInt (headerVersion lines "CUDA_VERSION".toList) with
  | none => .error .value
  | some v => .ok (if v = 0 then none else some (cudaVersionStr v))

/-- `get_header_version` of cuBLAS, cuDNN and NCCL (find_cuda_config.py:308-314, 341-346, 363-368): three
numbers joined with dots. -/
def threeVersion (major minor patch : PyStr) (lines : List PyStr) : Except CfgErr (Option PyStr) :=
  .ok (some (headerVersion lines major ++ '.' :: (headerVersion lines minor ++ '.' :: headerVersion lines patch)))

/-- `get_header_version` of TensorRT (find_cuda_config.py:385-396): `None` unless all three are found. -/
def rtVersion (major minor patch : PyStr) (lines : List PyStr) : Except CfgErr (Option PyStr) :=
  if headerVersion lines major = [] ∨ headerVersion lines minor = [] ∨ headerVersion lines patch = [] then .ok none
  else threeVersion major minor patch lines

section
variable {File : Type*}

/-- The files `glob.glob` finds below all combinations of base and relative paths, in the order of the loops
of `_find_versioned_file` and `_find_file` (find_cuda_config.py:130-132, 202-206, 225-226). -/
def candidates {Base Rel : Type*} (glob : Base → Rel → List File) (bases : List Base) (rels : List Rel) : List File :=
  (bases.flatMap (fun b => rels.map (fun r => (b, r)))).flatMap (fun p => glob p.1 p.2)

/-- `_find_versioned_file` (find_cuda_config.py:222-233) over the candidates. -/
def findVersioned (getVersion : File → Except CfgErr (Option PyStr)) (required : PyStr) :
    List File → Except CfgErr (File × PyStr)
  | [] => .error .config
  | f :: fs =>
    match getVersion f with
    | .error e => .error e
    | .ok none => findVersioned getVersion required fs
    | .ok (some v) => if matchesVersion (some v) required then .ok (f, v) else findVersioned getVersion required fs

/-- `_find_cudnn_config` (find_cuda_config.py:339-358): header and `cudnn_version`, the part before the first
dot.  `_find_nccl_config` is the same with other names. -/
def findCudnn (lines : File → List PyStr) (required : PyStr) (cands : List File) : Except CfgErr (File × PyStr) :=
  match findVersioned (fun f => threeVersion "CUDNN_MAJOR".toList "CUDNN_MINOR".toList "CUDNN_PATCHLEVEL".toList (lines f))
      required cands with
  | .error e => .error e
  | .ok (f, v) => .ok (f, (charSplit '.' v).headD [])

/-- Version and header of `_find_cuda_config` (find_cuda_config.py:249-252). -/
def findCuda (lines : File → List PyStr) (required : PyStr) (cands : List File) : Except CfgErr (File × PyStr) :=
  findVersioned (fun f => cudaHeaderVersion (lines f)) required cands

end

/-- The group of `"^(/[^/ ]*)+/lib/\w+-linux-gnu/?$"` (find_cuda_config.py:432-434) for a string without line
break: a repeated group gives its *last* repetition. -/
def LegacyMatch (s g : PyStr) : Prop :=
  ∃ (segs : List PyStr) (last w tail : PyStr), (∀ x ∈ segs ++ [last], ∀ c ∈ x, c ≠ '/' ∧ c ≠ ' ') ∧
    w ≠ [] ∧ (∀ c ∈ w, c.isAlphanum ∨ c = '_') ∧ (tail = [] ∨ tail = ['/']) ∧
    s = (segs.flatMap (fun x => '/' :: x)) ++ '/' :: last ++ "/lib/".toList ++ w ++ "-linux-gnu".toList ++ tail ∧
    g = '/' :: last

/-- `_get_legacy_path` (find_cuda_config.py:424-436) for a variable with value `s`. -/
inductive LegacyPath (s : PyStr) : List PyStr → Prop
  | hit (g) : LegacyMatch s g → LegacyPath s [g]
  | miss : (∀ g, ¬ LegacyMatch s g) → LegacyPath s (charSplit ',' s)

end PC
