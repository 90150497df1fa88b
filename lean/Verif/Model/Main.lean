import Verif.Model.Args
import Verif.Model.File
import Verif.Model.Include

/-! # `main`: from the command line and the files on the disk to the output file (main.cc:11-22) -/

namespace Verif

/-- The file system as seen through `fopen` (file.cc:80, 98; pass.cc:181, 238, 255): the files with their contents, and the
names under which a file can be written.  Simplifications: files differ if their paths differ as texts; files that cannot be read are left
out; a file that is written does not exist for reading if it did not exist before. -/
structure Disk where
  /-- path and contents -/
  files : List (Str × List Nat) := []
  /-- can the file be opened for writing? -/
  writable : Str → Bool := fun _ => true

/-- `fopen(path, "r")` succeeds (file.cc:80, 98). -/
def Disk.exist (W : Disk) (path : Str) : Bool := (W.files.find? (fun e => e.1 == path)).isSome

/-- The contents of an opened file (file.cc:80, 98). -/
def Disk.read (W : Disk) (path : Str) : List Nat := contents W.files path

/-- The disk after `fopen(path, "wb")` or the opening of the log file has emptied an existing file (pass.cc:181, 238). -/
def Disk.emptied (W : Disk) : Option Str → Disk
  | none => W
  | some path => { W with files := W.files.map fun e => if e.1 == path then (e.1, []) else e }

/-- A text and what is left of it after removing characters from the front (auxiliary for `Disk.visible`, file.cc:97). -/
def suffixes : Str → List Str
  | [] => [[]]
  | c :: s => (c :: s) :: suffixes s

/-- The names that `open_file` (file.cc:73-112) can open, with the contents it then finds.  Such a name is the end of a path. -/
def Disk.visible (W : Disk) (dirs : Option Str) : List (Str × List Nat) :=
  W.files.flatMap fun e => (suffixes e.1).filterMap fun n =>
    match openFile W.exist n dirs with
    | .opened p => some (n, W.read p)
    | _ => none

/-- The input files with their texts (pass.cc:106-136); `none` if one cannot be opened (pass.cc:113-117). -/
def inputTexts (W : Disk) (dirs : Option Str) : List Str → Option (List (Str × Str))
  | [] => some []
  | f :: r =>
    match openFile W.exist f dirs, inputTexts W dirs r with
    | .opened p, some l => some ((f, W.read p) :: l)
    | _, _ => none

/-- The passes (pass.cc:101-160).  Before the final one, which reads the files of `W1`, the output file is opened
(pass.cc:236-244); the others read those of `W0`.  Simplifications: that an input file cannot be opened is noticed at the start of the
pass; what has been written to the output file during the final pass is not seen by its readers. -/
def mainSem (f n : Nat) (W0 W1 : Disk) (dirs : Option Str) (inputs : List Str) (output : Bool) : PassSem (St × LexSt) where
  parse final s :=
    let W := if final then W1 else W0
    match inputTexts W dirs inputs with
    | none => none
    | some texts => (passSemSrc f n texts output).parse final ({ s.1 with files := W.visible dirs }, s.2)
  errorCount s := s.1.errorCount
  symValueChanged s := s.1.symValueChanged
  unresolved s := unresolvedCount s.1.syms

/-- What the program does (main.cc:11-22). -/
structure MainRes where
  /-- exit status; `none` if the process ended inside a pass or in undefined behaviour -/
  status : Option Int
  /-- the passes that completed -/
  passes : List (Bool × (St × LexSt) × (St × LexSt)) := []
  /-- the output file and its contents, if `assemble` came to its end -/
  output : Option (Str × List Nat) := none

/-- `main(argc, argv)` without the program name (main.cc:11-22): `pre_parse` only sets the streams of the messages;
`parse_arguments` (parseargs.cc:53-355) ends the process or returns the number of input files, which is positive;
then `assemble` (pass.cc:162-303).  The settings stored by `parse_arguments` are the globals of the same names.
Simplification: the list file, which does not change the status, and the contents of the symbol file are not described
(`genListFile`, `dumpSymbols`). -/
def mainRun (f n : Nat) (argv : List Str) (W : Disk) : MainRes :=
  match parseArguments argv {} with
  | .help => { status := some 0 }
  | .fail _ => { status := some (-1) }
  | .abnormal (.exit c) => { status := some c }
  | .abnormal _ => { status := none }
  | .done a s =>
    let F : AsmFiles := ⟨a.logFile.map W.writable, a.outFile.map W.writable, a.symFile.map W.writable, a.listFile.map W.writable⟩
    let W0 := W.emptied a.logFile
    let W1 := W0.emptied a.outFile
    let r := assemble (mainSem f n W0 W1 a.dirs a.inputs a.outFile.isSome) F
      ({ s with errorCount := 0, cpu := a.cpu, format := a.format, allowIllegal := a.allowIllegal, files := W0.visible a.dirs }, {})
    { status := r.status
      passes := r.passes
      output := match r.status, a.outFile, r.passes.getLast? with
        | some 0, some o, some (true, _, s2) => some (o, s2.1.out)
        | _, _, _ => none }

end Verif
