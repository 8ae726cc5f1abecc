/-
Ids of submaps and frames and the file names derived from them (builder/submap.cc, builder/frame.cc,
builder/map_package.cc), and the path helpers of common/file_utils.cc and common/macro_defines.cc.

Strings are lists of characters.  `std::to_string(int)` and `ostream << int` are modelled by
`decInt` (shortest decimal representation, '-' for negative numbers); ids are unbounded integers
(a superset of `int32_t`).
-/
namespace Verif

/-- Decimal digit character. -/
def digitChar (d : Nat) : Char := Char.ofNat (48 + d)

/-- Shortest decimal representation of a natural number (`std::to_string`). -/
def decNat (n : Nat) : List Char :=
  if n < 10 then [digitChar n] else decNat (n / 10) ++ [digitChar (n % 10)]
termination_by n
decreasing_by omega

/-- `std::to_string(int)` / `out << int`. -/
def decInt : Int → List Char
  | .ofNat n => decNat n
  | .negSucc n => '-' :: decNat (n + 1)

/-- builder/submap.h:41-44. -/
structure SubmapId where
  trajectory : Int
  submap : Int
  deriving DecidableEq, Repr

/-- builder/frame.h:33-36. -/
structure FrameId where
  trajectory : Int
  submap : Int
  frame : Int
  deriving DecidableEq, Repr

/-- submap.cc:45-48 : tuple comparison. -/
def SubmapId.eq (a b : SubmapId) : Bool :=
  a.trajectory == b.trajectory && a.submap == b.submap

/-- submap.cc:50-52. -/
def SubmapId.ne (a b : SubmapId) : Bool := !SubmapId.eq a b

/-- submap.cc:54-57 : `std::tuple`'s `<` compares the first components with `<`, and only looks at
the rest if neither first component is smaller. -/
def SubmapId.lt (a b : SubmapId) : Bool :=
  decide (a.trajectory < b.trajectory) ||
    (!decide (b.trajectory < a.trajectory) && decide (a.submap < b.submap))

/-- frame.cc:27-31. -/
def FrameId.eq (a b : FrameId) : Bool :=
  a.trajectory == b.trajectory && (a.submap == b.submap && a.frame == b.frame)

/-- frame.cc:33-35. -/
def FrameId.ne (a b : FrameId) : Bool := !FrameId.eq a b

/-- frame.cc:37-41. -/
def FrameId.lt (a b : FrameId) : Bool :=
  decide (a.trajectory < b.trajectory) ||
    (!decide (b.trajectory < a.trajectory) &&
      (decide (a.submap < b.submap) ||
        (!decide (b.submap < a.submap) && decide (a.frame < b.frame))))

/-- submap.cc:60-64 : `"(" t "," s ")"`. -/
def SubmapId.debugString (a : SubmapId) : List Char :=
  '(' :: (decInt a.trajectory ++ ',' :: (decInt a.submap ++ [')']))

/-- frame.cc:43-47 : `"f_" t "_" s "_" f`. -/
def FrameId.debugString (a : FrameId) : List Char :=
  'f' :: '_' :: (decInt a.trajectory ++ '_' :: (decInt a.submap ++ '_' :: decInt a.frame))

def binSuffix : List Char := ['.', 'b', 'i', 'n']
def pcdSuffix : List Char := ['.', 'p', 'c', 'd']

/-- submap.cc:165-172 : `saving_name_prefix + t + "_" + s + ".bin"`. -/
def submapFileName (pre : List Char) (a : SubmapId) : List Char :=
  pre ++ (decInt a.trajectory ++ '_' :: (decInt a.submap ++ binSuffix))

/-- submap.cc:210 and frame.cc:51-56 : `id.DebugString() + ".bin"`. -/
def frameFileName (a : FrameId) : List Char := a.debugString ++ binSuffix

/-- map_package.cc:201-203, 220-222. -/
def pieceFileName (pre : List Char) (x y : Int) : List Char :=
  pre ++ (decInt x ++ '_' :: (decInt y ++ pcdSuffix))

/-- `std::string::find_last_of(c)` (`none` = npos). -/
def findLast (c : Char) : List Char → Option Nat
  | [] => none
  | x :: xs =>
    match findLast c xs with
    | some i => some (i + 1)
    | none => if x = c then some 0 else none

/-- file_utils.cc:38-46 `FilePath` : `substr(0, found) + "/"`, or the empty string. -/
def filePath (s : List Char) : List Char :=
  match findLast '/' s with
  | some i => s.take i ++ ['/']
  | none => []

/-- macro_defines.cc:33-43 `splited_file_name` : what follows the last '/', cut to 127 characters
(`snprintf` into a buffer of 128). -/
def splitFileName (s : List Char) : List Char :=
  (match findLast '/' s with
   | some i => s.drop (i + 1)
   | none => s).take 127

/-- file_utils.cc:49-51 : `while (!path.empty() && path.back() == '/') path.pop_back()`. -/
def stripSlashes (s : List Char) : List Char := (s.reverse.dropWhile (· == '/')).reverse

/-- file_utils.cc:48-58 `CreateDir`, with the file system as two parameters: whether a path exists,
and the result of `create_directories`.  The second component lists the directories it asked the
file system to create. -/
def createDir (existsPath : List Char → Bool) (create : List Char → Bool) (path : List Char) :
    Bool × List (List Char) :=
  let p := stripSlashes path
  if p.isEmpty || existsPath p then (true, []) else (create p, [p])

end Verif
