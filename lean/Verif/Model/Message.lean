import Verif.Model.ListFile
import Verif.Model.Sym

/-! # Messages (error.cc) -/

namespace Verif

/-- What `ftell`, `fseek`, `fgets` and `feof` (error.cc:125-142) know of a file that is read: the content, the position and the
end-of-file indicator.  Simplification: characters are bytes (no text mode), the file contains no NUL. -/
structure Stream where
  content : Str
  pos : Nat := 0
  eof : Bool := false
deriving DecidableEq, Repr

/-- The characters one `fgets` takes when `room` fit, and whether it meets the end of the file (error.cc:128, 135). -/
def fgetsTake : Nat → Str → Str × Bool
  | 0, _ => ([], false)
  | _ + 1, [] => ([], true)
  | room + 1, c :: cs => if c = 10 then ([10], false) else (c :: (fgetsTake room cs).1, (fgetsTake room cs).2)

/-- `fgets(internal_buffer, max_line_len, yyin)` (error.cc:128, 135): the buffer and the file afterwards.  The buffer keeps its
content when there is nothing to read. -/
def Stream.fgets (f : Stream) (buf : Str) : Str × Stream :=
  let r := fgetsTake (maxLineLen - 1) (f.content.drop f.pos)
  (if r.1 = [] then buf else r.1, { f with pos := f.pos + r.1.length, eof := f.eof || r.2 })

/-- The loop over the lines that are not shown (error.cc:127-128). -/
def skipLines : Nat → Str × Stream → Str × Stream
  | 0, x => x
  | n + 1, x => skipLines n (x.2.fgets x.1)

/-- `fprintf("%-5d  ", n)` (error.cc:136). -/
def fmtLine (n : Int) : Str := decInt n ++ List.replicate (5 - (decInt n).length) 32 ++ [32, 32]

/-- The loop over the lines that are shown (error.cc:130-139): what is written, the buffer and the file. -/
def showLines : Nat → Int → Str × Stream → Str × (Str × Stream)
  | 0, _, x => ([], x)
  | n + 1, line, x =>
    if x.2.eof then showLines n (line + 1) x
    else
      let x' := x.2.fgets []
      let r := showLines n (line + 1) x'
      (fmtLine line ++ x'.1 ++ r.1, r.2)

/-- What the functions of error.cc use: `yyin`, `current_file_name`, `internal_buffer`, `yylineno` (error.cc:119-127),
`error_count`, `warning_count` (error.cc:14-15) and what has been written to `console_error`. -/
structure Con where
  yyin : Option Stream := none
  fileName : Option Str := none
  buffer : Option Str := none
  yylineno : Int := 0
  errorCount : Int := 0
  warningCount : Int := 0
  console : Str := []
deriving DecidableEq, Repr

/-- `yymessage` (error.cc:117-145). -/
def yymessage (s : Str) (c : Con) : Con :=
  match c.yyin, c.fileName, c.buffer with
  | some f, some name, some buf =>
    let x := skipLines (c.yylineno - 3).toNat (buf, { f with pos := 0, eof := false })
    let first := max 1 (c.yylineno - 2)
    let r := showLines (c.yylineno + 3 - first).toNat first x
    { c with
      console := c.console ++ (s ++ cstr! " File " ++ name ++ cstr! " near line " ++ decInt (c.yylineno + 1) ++ [10]) ++ r.1 ++ [10]
      buffer := some r.2.1
      yyin := some { r.2.2 with pos := f.pos, eof := false } }
  | _, _, _ => { c with console := c.console ++ s ++ [10] }

/-- `yyerror` (error.cc:151-155). -/
def yyerror (s : Str) (c : Con) : Con :=
  let c := yymessage s c
  { c with errorCount := c.errorCount + 1 }

/-- `errors` (error.cc:19-70). -/
def errorTexts : List Str :=
  [[], cstr! "Out of Memory.", cstr! "Source string NULL.", cstr! "Unrecognized escape sequence.",
   cstr! "Can't open include file", cstr! "No input file specified.", cstr! "Can't open input file.",
   cstr! "Error opening list list file.", cstr! "Invalid opcode or mode.", cstr! "Error writing to output file.",
   cstr! "Value out of range.", cstr! "Missing parameter.", cstr! "Error adding symbol.", cstr! "FOR_REG can't be nested.",
   cstr! "END_SECTION without section.", cstr! "Branch out of range, creating jmp.", cstr! "ORG specified more than once.",
   cstr! "Error setting symbol value.", cstr! "Internal error: Unknown node type.", cstr! "Internal error: Unknown operator type.",
   cstr! "Divide by zero.", cstr! "Infinite loop detected.", cstr! "Error expected NEXT.",
   cstr! "Error free called without alloc.", cstr! "Error free unknown pointer.", cstr! "Macro Parameter not found.",
   cstr! "Macro parameter underflow.", cstr! "Plus and Minus symbols not allowed in macro.", cstr! "Plus symbol overflow.",
   cstr! "Error missing output file.", cstr! "Output file specified more than once.", cstr! "Error missing symbol file name.",
   cstr! "Symbol file specified more than once.", cstr! "Invalid parameters specified.",
   cstr! "Ignore warnings specified more than once.", cstr! "Instruction set specified more than once.",
   cstr! "Allow illegal opcodes specified more than once.", cstr! "Error missing log file name.",
   cstr! "Logfile specified more than once.", cstr! "Output file format specified more than once.",
   cstr! "Verbose specified more than once.", cstr! "Error missing list file.", cstr! "List file specified more than once.",
   cstr! "Error creating log file.", cstr! "Maximum number of passes exceeded.", cstr! "Error opening symbol file.",
   cstr! "Error opening output file.", cstr! "Error creating list node.", cstr! "Error path name too long."]

/-- `error_max` (error.h:63). -/
def errorMax : Int := 49

/-- `errors[err_num]` behind the assertion (error.cc:78-79, 88-89, 100); `none` when the assertion fails. -/
def errorText (n : Int) : Option Str := if 0 < n ∧ n < errorMax then errorTexts[n.toNat]? else none

/-- `error` (error.cc:76-80). -/
def errorMsg (n : Int) (c : Con) : Option Con := (errorText n).map fun s => yyerror s c

/-- `warn` (error.cc:86-91). -/
def warnMsg (n : Int) (c : Con) : Option Con :=
  (errorText n).map fun s =>
    let c := yymessage s c
    { c with warningCount := c.warningCount + 1 }

/-- `error2` (error.cc:98-111); `none` when one of the assertions fails.  In the second case `internal_buffer` is whatever
`error` left in it. -/
def errorMsg2 (n : Int) (param : Str) (c : Con) : Option Con :=
  match errorText n, c.buffer with
  | some s, some _ =>
    if s.length + param.length + 2 < maxLineLen then
      let t := s ++ [32] ++ param
      some (yyerror t { c with buffer := some t })
    else
      let c' := yyerror s c
      some (yyerror (c'.buffer.getD []) c')
  | _, _ => none

end Verif
