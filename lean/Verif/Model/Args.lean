import Verif.Model.Sym
import Verif.Model.Numbers

/-! # The command line: `parse_arguments` (parseargs.cc:53-355) -/

namespace Verif

/-- The globals set by `parse_arguments` (globals.cc:15-44, opcodes.cc) and its two local flags.  In the
C++ program `cpu_mode`, `output_file_format` and `allow_illegal_op_codes` are the variables modelled in
`St`; they are kept apart here because the symbol functions called for `-d` do not read them. -/
structure Args where
  /-- `input_files[0 .. input_file_count - 1]` -/
  inputs : List Str := []
  /-- `output_file_name` (`NULL` = `none`) -/
  outFile : Option Str := none
  /-- `sym_file_name` -/
  symFile : Option Str := none
  /-- `directories` -/
  dirs : Option Str := none
  /-- `log_file_name` -/
  logFile : Option Str := none
  /-- `list_file_name` -/
  listFile : Option Str := none
  /-- `output_file_format` -/
  format : Format := .bin
  /-- `verbose` -/
  verbose : Bool := false
  /-- `cpu_specified` (parseargs.cc:65) -/
  cpuSpecified : Bool := false
  /-- `cpu_mode`, set to `cpu_6502` before the loop (parseargs.cc:76) -/
  cpu : Cpu := .c6502
  /-- `illegal_specified` (parseargs.cc:64) -/
  illegalSpecified : Bool := false
  /-- `allow_illegal_op_codes` -/
  allowIllegal : Bool := false
  /-- `ignore_warnings` -/
  ignoreWarnings : Bool := false
deriving DecidableEq, Repr

/-- The message printed before `exit(-1)` (error.h:18-59). -/
inductive ArgErr where
  | missingOutputFile | outputFileTwice | missingSymbolFile | symbolFileTwice | missingParameter
  | missingLogFile | logFileTwice | missingListFile | listFileTwice | c64Twice | verboseTwice
  | instructionSetTwice | illegalTwice | nowarnTwice | invalidParameters | noInputFile
deriving DecidableEq, Repr

/-- Outcome of `parse_arguments`. -/
inductive ArgRes where
  /-- it returns; the state holds the symbols defined with `-d` -/
  | done (a : Args) (s : St)
  /-- `usage(); exit(0)` -/
  | help
  /-- `error(e); usage(); exit(-1)` -/
  | fail (e : ArgErr)
  /-- the symbol functions called for `-d` did not return normally -/
  | abnormal (r : Res Unit)
deriving DecidableEq, Repr

/-- The test made for each option (parseargs.cc:84-298): the argument equals `-name` or `/name` up to
case. -/
def isOption (name arg : Str) : Bool :=
  stricmp arg (45 :: name) == 0 || stricmp arg (47 :: name) == 0

/-- The effect of `-d sym val` on the symbol table (parseargs.cc:331-338).  `times_accessed` is not
modelled. -/
def defineSymbol (name val : Str) : M Unit := do
  match ← addSymbol name with
  | none => M.pure ()
  | some i => do
    setSymbolValue i (defineValue val)
    modSym i fun x => { x with isInit := true }

/-- The loop of `parse_arguments` (parseargs.cc:81-345) and the test after it (parseargs.cc:347-352).  The
list holds the arguments from `arg_index` on. -/
def parseArgs : List Str → Args → St → ArgRes
  | [], a, s => if a.inputs.length = 0 then .fail .noInputFile else .done a s
  | x :: rest, a, s =>
    if isOption (cstr! "?") x || isOption (cstr! "h") x then .help
    else if isOption (cstr! "o") x then
      match rest with
      | [] => .fail .missingOutputFile
      | f :: rest =>
        if a.outFile ≠ none then .fail .outputFileTwice
        else parseArgs rest { a with outFile := some f } s
    else if isOption (cstr! "s") x then
      match rest with
      | [] => .fail .missingSymbolFile
      | f :: rest =>
        if a.symFile ≠ none then .fail .symbolFileTwice
        else parseArgs rest { a with symFile := some f } s
    else if isOption (cstr! "dir") x then
      match rest with
      | [] => .fail .missingParameter
      | f :: rest =>
        if a.dirs ≠ none then .fail .symbolFileTwice
        else parseArgs rest { a with dirs := some f } s
    else if isOption (cstr! "log") x then
      match rest with
      | [] => .fail .missingLogFile
      | f :: rest =>
        if a.logFile ≠ none then .fail .logFileTwice
        else parseArgs rest { a with logFile := some f } s
    else if isOption (cstr! "l") x then
      match rest with
      | [] => .fail .missingListFile
      | f :: rest =>
        if a.listFile ≠ none then .fail .listFileTwice
        else parseArgs rest { a with listFile := some f } s
    else if isOption (cstr! "c64") x then
      if a.format = .c64 then .fail .c64Twice
      else parseArgs rest { a with format := .c64 } s
    else if isOption (cstr! "v") x then
      if a.verbose then .fail .verboseTwice
      else parseArgs rest { a with verbose := true } s
    else if isOption (cstr! "65c02") x then
      if a.cpuSpecified then .fail .instructionSetTwice
      else parseArgs rest { a with cpuSpecified := true, cpu := .c65C02 } s
    else if isOption (cstr! "6502") x then
      if a.cpuSpecified then .fail .instructionSetTwice
      else parseArgs rest { a with cpuSpecified := true, cpu := .c6502 } s
    else if isOption (cstr! "i") x then
      if a.illegalSpecified then .fail .illegalTwice
      else parseArgs rest { a with illegalSpecified := true, allowIllegal := true } s
    else if isOption (cstr! "nowarn") x then
      if a.ignoreWarnings then .fail .nowarnTwice
      else parseArgs rest { a with ignoreWarnings := true } s
    else if isOption (cstr! "d") x then
      match rest with
      | [] => .fail .invalidParameters
      | [_] => .fail .invalidParameters
      | n :: v :: rest =>
        match defineSymbol n v s with
        | (.ok (), s') => parseArgs rest a s'
        | (r, _) => .abnormal r
    else parseArgs rest { a with inputs := a.inputs ++ [x] } s

/-- `parse_arguments(argc, argv)` (parseargs.cc:53-355) without the program name `argv[0]`.  The state is
the one after static initialisation (globals.cc), where no file name is set.  Not modelled: the echo of
the arguments on the console and `init_expander`. -/
def parseArguments (argv : List Str) (s : St) : ArgRes := parseArgs argv {} s

end Verif
