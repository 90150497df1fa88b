import Verif.Model.Grammar
import Verif.Model.SanitizeString
import Verif.Model.Numbers

/-! # The scanner (pasm.l)

The patterns are regular expressions; flex takes the longest match and, among patterns matching equally much, the first. -/

namespace Verif

/-- Regular expressions as used in pasm.l:57-450. -/
inductive Re where
  | empty
  | eps
  | chr (p : Nat → Bool)
  | seq (a b : Re)
  | alt (a b : Re)
  | star (a : Re)

/-- Sequence, simplified when nothing can match (flex, pasm.l). -/
def Re.mkSeq : Re → Re → Re
  | .empty, _ => .empty
  | .eps, b => b
  | a, b => .seq a b

/-- Alternative, simplified when one side cannot match (flex, pasm.l). -/
def Re.mkAlt : Re → Re → Re
  | .empty, b => b
  | a, .empty => a
  | a, b => .alt a b

/-- Does the expression match the empty text (flex, pasm.l)? -/
def Re.nullable : Re → Bool
  | .empty => false
  | .eps => true
  | .chr _ => false
  | .seq a b => a.nullable && b.nullable
  | .alt a b => a.nullable || b.nullable
  | .star _ => true

/-- What remains to be matched after the character `c` (flex, pasm.l). -/
def Re.deriv (c : Nat) : Re → Re
  | .empty => .empty
  | .eps => .empty
  | .chr p => if p c then .eps else .empty
  | .seq a b => if a.nullable then Re.mkAlt (Re.mkSeq (a.deriv c) b) (b.deriv c) else Re.mkSeq (a.deriv c) b
  | .alt a b => Re.mkAlt (a.deriv c) (b.deriv c)
  | .star a => Re.mkSeq (a.deriv c) (.star a)

/-- Length of the longest prefix of the text that matches (flex, pasm.l). -/
def Re.longest : Re → Str → Option Nat
  | .empty, _ => none
  | r, [] => if r.nullable then some 0 else none
  | r, c :: s =>
    match (r.deriv c).longest s with
    | some n => some (n + 1)
    | none => if r.nullable then some 0 else none

/-- A quoted pattern; `%option case-insensitive` (pasm.l:1).  The word is given in lower case. -/
def lit : Str → Re
  | [] => .eps
  | c :: w => .seq (.chr fun x => tolower x == c) (lit w)

/-- `r+` (as in pasm.l:57, 62, 339, 428). -/
def Re.plus (r : Re) : Re := .seq r (.star r)

/-- `r?` (as in pasm.l:57, 63, 376). -/
def Re.opt (r : Re) : Re := .alt r .eps

/-- The pattern `c` for one character (pasm.l). -/
def one (c : Nat) : Re := .chr fun x => x == c

/-- `[0-7]` (pasm.l:57, 152-155, 369). -/
def digit07 : Re := .chr fun c => decide (48 ≤ c ∧ c ≤ 55)

/-- `[0-9]` (pasm.l:331, 366). -/
def digit09 : Re := .chr fun c => decide (48 ≤ c ∧ c ≤ 57)

/-- `[0-1]` (pasm.l:367-368). -/
def digit01 : Re := .chr fun c => decide (48 ≤ c ∧ c ≤ 49)

/-- `[a-fA-F0-9]` (pasm.l:57, 364-365). -/
def digitHex : Re := .chr isxdigit

/-- `[ \t]` (pasm.l:158, 312, 372). -/
def blank : Re := .chr fun c => c == 32 || c == 9

/-- `.`, any character but a newline (as in pasm.l:360, 422, 450). -/
def dot : Re := .chr fun c => c != 10

/-- `[A-Za-z_]` (pasm.l:63). -/
def isSymbStart (c : Nat) : Bool := decide (65 ≤ c ∧ c ≤ 90) || decide (97 ≤ c ∧ c ≤ 122) || c == 95

/-- `[A-Za-z0-9_.]` (pasm.l:63). -/
def isSymbChar (c : Nat) : Bool := isSymbStart c || decide (48 ≤ c ∧ c ≤ 57) || c == 46

/-- `SYMB` (pasm.l:63). -/
def reSymb : Re := .seq (.opt (one 64)) (.seq (.chr isSymbStart) (.star (.chr isSymbChar)))

/-- `ES` (pasm.l:57). -/
def reEs : Re := .seq (one 92)
  (.alt (.chr fun c => c == 39 || c == 34 || c == 63 || c == 92 ||
      [97, 98, 102, 110, 114, 116, 118].contains (tolower c))
    (.alt (.seq digit07 (.seq (.opt digit07) (.opt digit07))) (.seq (lit [120]) (.plus digitHex))))

/-- `STRVALUE` (pasm.l:62). -/
def reStr : Re := .plus (.seq (one 34)
  (.seq (.star (.alt (.chr fun c => c != 34 && c != 92 && c != 10) reEs)) (one 34)))

/-- What a rule does (the actions of pasm.l:66-450). -/
inductive LexAct where
  /-- return a token -/
  | tok (t : Tok)
  /-- `OP_REL` (pasm.l:34): the digit selects the instruction -/
  | opRel (base : Int)
  | eol
  | ifDef (neg : Bool)
  | ifTok | elseTok | endIfTok
  | skipIf | skipElse | skipEndIf
  | whileTok | doTok | macroTok | endMacroTok
  | setCpu (c : Cpu) | setIllegal (on : Bool) | setC64
  /-- `.warn`, `.debug_…`: nothing the model keeps -/
  | switch
  | param
  | plusMinus
  | int1
  | int (off base : Nat)
  | str
  | pcAssign
  | symb
  | comment | endComment
  | skip
  | bad
deriving DecidableEq, Repr

/-- The mnemonics (pasm.l:66-151). -/
def opWords : List (Str × Tok) :=
  [(cstr! "ora", (.opcode Ins._ora)), (cstr! "and", (.opcode Ins._and)), (cstr! "eor", (.opcode Ins._eor)),
   (cstr! "adc", (.opcode Ins._adc)), (cstr! "sbc", (.opcode Ins._sbc)), (cstr! "cmp", (.opcode Ins._cmp)),
   (cstr! "cpx", (.opcode Ins._cpx)), (cstr! "cpy", (.opcode Ins._cpy)), (cstr! "dec", (.opcode Ins._dec)),
   (cstr! "dex", (.opcode Ins._dex)), (cstr! "dey", (.opcode Ins._dey)), (cstr! "inc", (.opcode Ins._inc)),
   (cstr! "inx", (.opcode Ins._inx)), (cstr! "iny", (.opcode Ins._iny)), (cstr! "asl", (.opcode Ins._asl)),
   (cstr! "rol", (.opcode Ins._rol)), (cstr! "lsr", (.opcode Ins._lsr)), (cstr! "ror", (.opcode Ins._ror)),
   (cstr! "lda", (.opcode Ins._lda)), (cstr! "sta", (.opcode Ins._sta)), (cstr! "ldx", (.opcode Ins._ldx)),
   (cstr! "stx", (.opcode Ins._stx)), (cstr! "ldy", (.opcode Ins._ldy)), (cstr! "sty", (.opcode Ins._sty)),
   (cstr! "tax", (.opcode Ins._tax)), (cstr! "txa", (.opcode Ins._txa)), (cstr! "tay", (.opcode Ins._tay)),
   (cstr! "tya", (.opcode Ins._tya)), (cstr! "tsx", (.opcode Ins._tsx)), (cstr! "txs", (.opcode Ins._txs)),
   (cstr! "pla", (.opcode Ins._pla)), (cstr! "pha", (.opcode Ins._pha)), (cstr! "plp", (.opcode Ins._plp)),
   (cstr! "php", (.opcode Ins._php)), (cstr! "bpl", (.opcode Ins._bpl)), (cstr! "bmi", (.opcode Ins._bmi)),
   (cstr! "bvc", (.opcode Ins._bvc)), (cstr! "bvs", (.opcode Ins._bvs)), (cstr! "bcc", (.opcode Ins._bcc)),
   (cstr! "bcs", (.opcode Ins._bcs)), (cstr! "bne", (.opcode Ins._bne)), (cstr! "beq", (.opcode Ins._beq)),
   (cstr! "brk", (.opcode Ins._brk)), (cstr! "rti", (.opcode Ins._rti)), (cstr! "jsr", (.opcode Ins._jsr)),
   (cstr! "rts", (.opcode Ins._rts)), (cstr! "jmp", (.opcode Ins._jmp)), (cstr! "bit", (.opcode Ins._bit)),
   (cstr! "clc", (.opcode Ins._clc)), (cstr! "sec", (.opcode Ins._sec)), (cstr! "cld", (.opcode Ins._cld)),
   (cstr! "sed", (.opcode Ins._sed)), (cstr! "cli", (.opcode Ins._cli)), (cstr! "sei", (.opcode Ins._sei)),
   (cstr! "clv", (.opcode Ins._clv)), (cstr! "nop", (.opcode Ins._nop)), (cstr! "slo", (.opcode Ins._slo)),
   (cstr! "rla", (.opcode Ins._rla)), (cstr! "sre", (.opcode Ins._sre)), (cstr! "rra", (.opcode Ins._rra)),
   (cstr! "sax", (.opcode Ins._sax)), (cstr! "lax", (.opcode Ins._lax)), (cstr! "dcp", (.opcode Ins._dcp)),
   (cstr! "isc", (.opcode Ins._isc)), (cstr! "anc", (.opcode Ins._anc)), (cstr! "anc2", (.opcode Ins._anc2)),
   (cstr! "alr", (.opcode Ins._alr)), (cstr! "arr", (.opcode Ins._arr)), (cstr! "xaa", (.opcode Ins._xaa)),
   (cstr! "axs", (.opcode Ins._axs)), (cstr! "usbc", (.opcode Ins._usbc)), (cstr! "ahx", (.opcode Ins._ahx)),
   (cstr! "shy", (.opcode Ins._shy)), (cstr! "shx", (.opcode Ins._shx)), (cstr! "tas", (.opcode Ins._tas)),
   (cstr! "las", (.opcode Ins._las)), (cstr! "bra", (.opcode Ins._bra)), (cstr! "phx", (.opcode Ins._phx)),
   (cstr! "phy", (.opcode Ins._phy)), (cstr! "plx", (.opcode Ins._plx)), (cstr! "ply", (.opcode Ins._ply)),
   (cstr! "stz", (.opcode Ins._stz)), (cstr! "trb", (.opcode Ins._trb)), (cstr! "tsb", (.opcode Ins._tsb)),
   (cstr! "stp", (.opcode Ins._stp)), (cstr! "wai", (.opcode Ins._wai))]

/-- The directives and operators (pasm.l:250-291). -/
def dirWords : List (Str × Tok) :=
  [(cstr! ".byte", .byte), (cstr! ".db", .byte), (cstr! ".word", .word), (cstr! ".dw", .word), (cstr! ".dcw", .word),
   (cstr! ".ds", .ds), (cstr! ".equ", .equ), (cstr! "not", .not), (cstr! ">=", .ge), (cstr! "<=", .le),
   (cstr! "==", .eq), (cstr! "!=", .ne), (cstr! "<>", .ne), (cstr! "<<", .shl), (cstr! ">>", .shr),
   (cstr! "||", .or), (cstr! "|", .bitOr), (cstr! "&&", .and), (cstr! "&", .bitAnd), (cstr! ".repeat", .«repeat»),
   (cstr! ".until", .«until»), (cstr! ".end", .end'), (cstr! ".print", .print), (cstr! "?", .print),
   (cstr! ".printall", .printAll), (cstr! "??", .printAll), (cstr! ".for", .«for»), (cstr! ".next", .next),
   (cstr! ".step", .step), (cstr! ".to", .to), (cstr! ".downto", .downTo), (cstr! ".str", .str'),
   (cstr! ".text", .str'), (cstr! ".string", .str'), (cstr! ".org", .org), (cstr! ".section", .sect),
   (cstr! ".endsection", .endSect), (cstr! ".sect", .sect), (cstr! ".ends", .endSect), (cstr! ".inc", .inc),
   (cstr! ".load", .load), (cstr! ".fill", .fill)]

/-- The remaining directives that only return a token (pasm.l:303, 309-311). -/
def loopWords : List (Str × Tok) :=
  [(cstr! ".wend", .wend), (cstr! ".regx", .regX), (cstr! ".regy", .regY), (cstr! ".var", .«var»)]

/-- A rule for a fixed word (the rules of pasm.l:66-151, 250-311). -/
def wordRule (w : Str × Tok) : Re × LexAct := (lit w.1, .tok w.2)

/-- Rules 152-249 of the initial condition: numbered instructions, end of line, conditional assembly (pasm.l). -/
def condRules : List (Re × LexAct) :=
  [(.seq (lit (cstr! "bbr")) digit07, .opRel Ins._bbr0),
   (.seq (lit (cstr! "bbs")) digit07, .opRel Ins._bbs0),
   (.seq (lit (cstr! "rmb")) digit07, .opRel Ins._rmb0),
   (.seq (lit (cstr! "smb")) digit07, .opRel Ins._smb0),
   (.chr fun c => c == 13 || c == 10, .eol),
   (.seq (lit (cstr! ".ifdef")) (.seq (.plus blank) reSymb), .ifDef false),
   (.seq (lit (cstr! ".ifndef")) (.seq (.plus blank) reSymb), .ifDef true),
   (lit (cstr! ".endif"), .endIfTok),
   (lit (cstr! ".if"), .ifTok),
   (lit (cstr! ".else"), .elseTok)]

/-- Rules 292-328 that do more than return a token (pasm.l). -/
def stateRules : List (Re × LexAct) :=
  [(lit (cstr! ".while"), .whileTok),
   (lit (cstr! ".do"), .doTok),
   (lit (cstr! ".macro"), .macroTok),
   (lit (cstr! ".mac"), .macroTok),
   (lit (cstr! ".endmacro"), .endMacroTok),
   (lit (cstr! ".endm"), .endMacroTok),
   (.seq (lit (cstr! ".6502")) (.seq (.star blank) (lit (cstr! "on"))), .setCpu .c6502),
   (.seq (lit (cstr! ".65c02")) (.seq (.star blank) (lit (cstr! "on"))), .setCpu .c65C02),
   (.seq (lit (cstr! ".illegal")) (.seq (.star blank) (lit (cstr! "on"))), .setIllegal true),
   (.seq (lit (cstr! ".illegal")) (.seq (.star blank) (lit (cstr! "off"))), .setIllegal false),
   (.seq (lit (cstr! ".warn")) (.seq (.star blank) (lit (cstr! "on"))), .switch),
   (.seq (lit (cstr! ".warn")) (.seq (.star blank) (lit (cstr! "off"))), .switch),
   (lit (cstr! ".c64"), .setC64),
   (.seq (lit (cstr! ".print")) (.seq blank (lit (cstr! "on"))), .tok .printOn),
   (.seq (lit (cstr! ".print")) (.seq blank (lit (cstr! "off"))), .tok .printOff),
   (.seq (lit (cstr! ".debug_token")) (.seq blank (lit (cstr! "on"))), .switch),
   (.seq (lit (cstr! ".debug_token")) (.seq blank (lit (cstr! "off"))), .switch),
   (.seq (lit (cstr! ".debug_bison")) (.seq blank (lit (cstr! "on"))), .switch),
   (.seq (lit (cstr! ".debug_bison")) (.seq blank (lit (cstr! "off"))), .switch),
   (.seq (lit (cstr! ".debug_addlist")) (.seq blank (lit (cstr! "on"))), .switch),
   (.seq (lit (cstr! ".debug_addlist")) (.seq blank (lit (cstr! "off"))), .switch)]

/-- Rules 331-375: parameters, anonymous labels, numbers, texts, the location counter, registers (pasm.l). -/
def valueRules : List (Re × LexAct) :=
  [(.seq (one 92) (.seq (.plus (.chr fun c => decide (49 ≤ c ∧ c ≤ 57))) (.star digit09)), .param),
   (.plus (.chr fun c => c == 43 || c == 124 || c == 45), .plusMinus),
   (.seq (one 39) (.seq dot (one 39)), .int1),
   (.seq (one 39) (.seq (one 92) (.seq dot (one 39))), .int1),
   (.seq (one 34) (.seq dot (one 34)), .int1),
   (.seq (one 34) (.seq (one 92) (.seq dot (.chr fun c => c == 39 || c == 34))), .int1),
   (.seq (one 36) (.star digitHex), .int 1 16),
   (.seq (one 39) (.seq (one 92) (.seq (lit [120]) (.seq (.plus digitHex) (one 39)))), .int 3 16),
   (.star digit09, .int 0 10),
   (.seq (one 37) (.star digit01), .int 1 2),
   (.seq (lit (cstr! "0b")) (.star digit01), .int 2 2),
   (.seq (one 39) (.seq (one 92) (.seq digit07 (.seq digit07 (.seq digit07 (one 39))))), .int 2 8),
   (reStr, .str),
   (.seq (one 42) (.seq (.star blank) (one 61)), .pcAssign),
   (.seq (one 42) (.seq (.star blank) (lit (cstr! ".equ"))), .pcAssign),
   (lit (cstr! "x"), .tok .x),
   (lit (cstr! "y"), .tok .y)]

/-- The character tokens (pasm.l:427); a newline is taken by the rule in line 157. -/
def charToks : List (Str × Tok) :=
  [([45], .minus), ([60], .lt), ([62], .gt), ([61], .assign), ([43], .plus), ([42], .star), ([47], .slash),
   ([35], .hash), ([44], .comma), ([40], .lpar), ([41], .rpar)]

/-- Rules 376-450: symbols, comments, characters (pasm.l).  The character `;` in the pattern of line 427 can never be matched by that rule:
it begins a comment.  The pattern is split by character. -/
def lastRules : List (Re × LexAct) :=
  [(.seq reSymb (.opt (one 58)), .symb),
   (lit [47, 42], .comment),
   (.seq (one 59) (.star dot), .skip),
   (.seq (one 47) (.seq (one 47) (.star dot)), .skip),
   (lit [126], .tok .tilde),
   (lit [94], .tok .caret)] ++
  charToks.map wordRule ++
  [(.plus blank, .skip),
   (dot, .bad)]

/-- The rules of the initial start condition, in order (pasm.l:66-450). -/
def initialRules : List (Re × LexAct) :=
  opWords.map wordRule ++ condRules ++ dirWords.map wordRule ++ loopWords.map wordRule ++ stateRules ++ valueRules ++
    lastRules

/-- The rules of the start condition `C_COMMENT` (pasm.l:420-421). -/
def commentRules : List (Re × LexAct) :=
  [(lit [42, 47], .endComment), (.alt dot (one 10), .skip)]

/-- The rules of the start condition `IF_DEF` (pasm.l:188-220). -/
def ifDefRules : List (Re × LexAct) :=
  [(lit (cstr! ".if"), .skipIf), (lit (cstr! ".else"), .skipElse), (lit (cstr! ".endif"), .skipEndIf),
   (.alt dot (one 10), .skip)]

/-- The rule flex chooses: the longest match, the first rule among equals (flex, pasm.l). -/
def bestRule (s : Str) : List (Re × LexAct) → Option (Nat × LexAct)
  | [] => none
  | (r, a) :: rs =>
    match r.longest s, bestRule s rs with
    | none, b => b
    | some n, none => some (n, a)
    | some n, some (m, b) => if m ≤ n then some (n, a) else some (m, b)

/-- Start conditions (pasm.l:54-55). -/
inductive LexCond where
  | initial | comment | ifDef
deriving DecidableEq, Repr

/-- The rules of a start condition (pasm.l:54-55; both are exclusive). -/
def LexCond.rules : LexCond → List (Re × LexAct)
  | .initial => initialRules
  | .comment => commentRules
  | .ifDef => ifDefRules

/-- State of the scanner (pasm.l:19-20 and the globals it uses). -/
structure LexSt where
  cond : LexCond := .initial
  /-- `last_token` -/
  last : Option Str := none
  /-- `do_count` -/
  doCount : Int := 0
  /-- `in_macro_definition` -/
  inMacro : Int := 0
  /-- `ifdef_stack`, top first -/
  ifStack : List Int := []
  /-- `yylineno` -/
  line : Int := 1
deriving DecidableEq, Repr

/-- What a step of the scanner hands out (the actions of pasm.l:66-450). -/
inductive LexEv where
  | tok (t : Tok)
  /-- nothing -/
  | none
  /-- `cpu_mode`, `allow_illegal_op_codes`, `output_file_format` are set -/
  | setCpu (c : Cpu) | setIllegal (on : Bool) | setC64
  /-- this many errors are reported, then perhaps a token returned -/
  | error (n : Nat) (t : Option Tok)
deriving DecidableEq, Repr

/-- Is the previous token the end of a line, or the start of the file (pasm.l:340, 378)? -/
def LexSt.afterNewline (s : LexSt) : Bool :=
  match s.last with
  | some (10 :: _) => true
  | _ => false

/-- The identifier rule (pasm.l:376-418).  `isMac` is `sym != NULL && sym->is_macro_name` for this name.  The marks set on
an existing symbol are left to the caller (`lexMacroName`; `is_label` is only used for listings). -/
def lexSymb (isMac : Str → Bool) (s : LexSt) (text : Str) : Tok :=
  let isMacroName := match s.last with
    | some (46 :: m :: a :: c :: _) => tolower m == 109 && tolower a == 97 && tolower c == 99
    | _ => false
  if isMac text then .macsym text
  else if s.last.isNone || s.afterNewline then
    if s.inMacro > 0 then .sym text else .label text
  else if isMacroName then .macsym text
  else .sym text

/-- The value of a character constant: `INT_1BYTE` (pasm.l:41-49).  `none`: `sanitize_string` or the index leaves the text. -/
def lexInt1 (text : Str) : Option (Int × Nat) :=
  match sanitizeString text with
  | some (v, e) => some (((v[1]?).getD 0 % 256 : Nat), e)
  | none => none

/-- The name in `.ifdef name` (`SKIP_WHITE`, pasm.l:51, 164-165). -/
def ifDefName (text : Str) : Str :=
  (text.dropWhile fun c => c != 32 && c != 9).dropWhile fun c => c == 32 || c == 9

/-- One action (pasm.l:66-450) for the matched text: the new state, what is handed out, and the text put back.  `none` is
undefined behaviour (empty `ifdef_stack`, reading past a text).  `defined` is `look_up_symbol(p) != NULL`. -/
def lexAct (isMac defined : Str → Bool) (s : LexSt) (text : Str) : LexAct → Option (LexSt × LexEv × Str)
  | .tok t => some ({ s with last := some text }, .tok t, [])
  | .opRel base => some ({ s with last := some text }, .tok (.opcode (base + (text[3]?.getD 48 : Nat) - 48)), [])
  | .eol => some ({ s with last := some text }, .tok (.eol s.line), [])
  | .ifDef neg =>
    some ({ s with
      last := some text
      ifStack := 0 :: s.ifStack
      cond := if defined (ifDefName text) == neg then .ifDef else .initial }, .none, [])
  | .ifTok => some ({ s with last := some text, ifStack := 1 :: s.ifStack }, .tok .if, [])
  | .elseTok =>
    match s.ifStack with
    | [] => none
    | t :: _ =>
      if t ≠ 0 then some ({ s with last := some text }, .tok .else, [])
      else some ({ s with last := some text, cond := .ifDef }, .none, [])
  | .endIfTok =>
    match s.ifStack with
    | [] => some ({ s with last := some text }, .tok .endIf, [])
    | t :: r =>
      some ({ s with last := some text, ifStack := r }, if t ≠ 0 then .tok .endIf else .none, [])
  | .skipIf => some ({ s with last := some text, ifStack := 1 :: s.ifStack }, .none, [])
  | .skipElse =>
    match s.ifStack with
    | [] => none
    | t :: _ => some ({ s with last := some text, cond := if t = 0 then .initial else s.cond }, .none, [])
  | .skipEndIf =>
    match s.ifStack with
    | [] => none
    | _ :: r => some ({ s with last := some text, ifStack := r, cond := if r = [] then .initial else s.cond }, .none, [])
  | .whileTok =>
    if s.doCount > 0 then some ({ s with last := some text, doCount := s.doCount - 1 }, .tok .endDo, [])
    else some ({ s with last := some text }, .tok .while, [])
  | .doTok => some ({ s with last := some text, doCount := s.doCount + 1 }, .tok .do, [])
  | .macroTok => some ({ s with last := some text, inMacro := s.inMacro + 1 }, .tok .macro, [])
  | .endMacroTok => some ({ s with last := some text, inMacro := s.inMacro - 1 }, .tok .endMacro, [])
  | .setCpu c => some ({ s with last := some text }, .setCpu c, [])
  | .setIllegal on => some ({ s with last := some text }, .setIllegal on, [])
  | .setC64 => some ({ s with last := some text }, .setC64, [])
  | .switch => some ({ s with last := some text }, .none, [])
  | .param =>
    if s.inMacro = 0 then some ({ s with last := some (text.take 2) }, .error 1 none, text.drop 1)
    else some ({ s with last := some text }, .tok (.sym text), [])
  | .plusMinus =>
    some ({ s with last := some text },
      if s.afterNewline then .tok (.label text)
      else if text = [43] then .tok .plus
      else if text = [45] then .tok .minus
      else .tok (.sym text), [])
  | .int1 =>
    match lexInt1 text with
    | some (v, e) => some ({ s with last := some text }, if e = 0 then .tok (.int v) else .error e (some (.int v)), [])
    | none => none
  | .int off base => some ({ s with last := some text }, .tok (.int (toInt32 (strtol base (text.drop off)))), [])
  | .str => some ({ s with last := some text }, .tok (.str text), [])
  | .pcAssign => some ({ s with last := some text }, .tok .pcAssign, [61])
  | .symb => some ({ s with last := some text }, .tok (lexSymb isMac s text), [])
  | .comment => some ({ s with last := some text, cond := .comment }, .none, [])
  | .endComment => some ({ s with last := some text, cond := .initial }, .none, [])
  | .skip => some (s, .none, [])
  | .bad => some (s, .error 1 none, [])

/-- One match of the scanner (`yylex`, pasm.l:66-450) on a text that is not empty: the newlines of the match are counted
(`%option yylineno`), then the action is performed.  The result is the new state, what is handed out, and the
remaining text. -/
def lexStep (isMac defined : Str → Bool) (s : LexSt) (text : Str) : Option (LexSt × LexEv × Str) :=
  match bestRule text s.cond.rules with
  | none => none
  | some (n, a) =>
    match lexAct isMac defined { s with line := s.line + ((text.take n).count 10 : Nat) } (text.take n) a with
    | none => none
    | some (s', ev, back) => some (s', ev, back ++ text.drop n)

/-- Scanning a whole text.  Every match shortens the text, so the length of the text is enough fuel (flex, pasm.l). -/
def scan (isMac defined : Str → Bool) : Nat → LexSt → Str → Option (LexSt × List LexEv)
  | _, s, [] => some (s, [])
  | 0, _, _ :: _ => none
  | f + 1, s, c :: text =>
    match lexStep isMac defined s (c :: text) with
    | none => none
    | some (s', ev, rest) =>
      match scan isMac defined f s' rest with
      | none => none
      | some (s2, evs) => some (s2, if ev = .none then evs else ev :: evs)

end Verif
