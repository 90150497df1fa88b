import Verif.Model.Str

/-! # Opening files through the search path (file.cc:66-112) -/

namespace Verif

/-- `path_max` (file.cc:23-26), the size of the static buffer `path` (file.cc:29). -/
def pathMax : Nat := 4096

/-- Outcome of `open_file`. -/
inductive OpenRes where
  /-- the stream of this file -/
  | opened (path : Str)
  /-- `NULL` -/
  | null
  /-- `exit(-1)` -/
  | exit
  /-- a write outside `path[path_max]` (undefined behaviour) -/
  | overrun
  deriving DecidableEq, Repr

/-- The copy loop (file.cc:89-93): the entry copied into `path` and the rest of the search path.
`room` is `path_max - 1 - len`. -/
def copyEntry : Nat → Str → Str × Str
  | 0, dir => ([], dir)
  | _ + 1, [] => ([], [])
  | room + 1, c :: dir =>
    if c = 59 then ([], c :: dir)
    else let r := copyEntry room dir; (c :: r.1, r.2)

/-- Skips one `;` and then blanks (file.cc:104-108). -/
def skipSep (dir : Str) : Str :=
  let dir := match dir with
    | 59 :: r => r
    | d => d
  dir.dropWhile fun c => c == 32 || c == 9

/-- The loop over the search path (file.cc:85-110).  `fuel` bounds the iterations (each consumes at
least one character); `fopen` succeeds exactly when the file exists. -/
def openLoop (exist : Str → Bool) (file : Str) : Nat → Str → OpenRes
  | 0, _ => .null
  | _ + 1, [] => .null
  | fuel + 1, c :: dir =>
    let e := copyEntry (pathMax - 1) (c :: dir)
    if e.1.length + 1 > pathMax then .overrun
    else if e.1.length + file.length + 2 ≥ pathMax then .exit
    else if (e.1 ++ file).length + 1 > pathMax then .overrun
    else if exist (e.1 ++ file) then .opened (e.1 ++ file)
    else openLoop exist file fuel (skipSep e.2)

/-- `open_file` (file.cc:73-112) for a non-null name; `dirs = none` is `directories == NULL`. -/
def openFile (exist : Str → Bool) (file : Str) (dirs : Option Str) : OpenRes :=
  if exist file then .opened file
  else match dirs with
    | none => .null
    | some d => openLoop exist file (d.length + 1) d

end Verif
