import Verif.Model.Lex
import Verif.Spec.Literals
import Verif.Spec.FinMap
import Verif.Spec.Layout

/-! # Specification: source text

How a text is divided into tokens.  Words are recognised in any letter case; a word ends where the name can go no
further. -/

namespace Verif.Spec

/-- Where in the text a token stands. -/
inductive Place where
  /-- nothing but blanks and comments before it -/
  | fileStart
  /-- first in its line -/
  | lineStart
  /-- after `.macro` -/
  | macroName
  | inside
deriving DecidableEq

/-- What the meaning of a word depends on. -/
structure Scan where
  /-- where the next token stands -/
  place : Place
  /-- open `.do` loops -/
  dos : Nat
  /-- open macro definitions -/
  macros : Nat
  /-- open `.if` blocks, within the innermost `.ifdef` block -/
  ifs : Nat
  /-- line number -/
  line : Int
  /-- open `.ifdef` and `.ifndef` blocks, innermost first: for each the number of open `.if` blocks around it, up to the
  next one -/
  conds : List Nat := []

/-- The same after a token in the middle of a line. -/
def Scan.mid (C : Scan) : Scan := { C with place := .inside }

/-- A byte of a literal string. -/
def bytes (w : String) : List Nat := w.toList.map Char.toNat

/-- `w` is the word `name` in any letter case. -/
def Is (name : String) (w : List Nat) : Prop := foldCase w = bytes name
deriving Decidable

/-- A letter or underscore. -/
def NameStart (c : Nat) : Prop :=
  ('a'.toNat ≤ c ∧ c ≤ 'z'.toNat) ∨ ('A'.toNat ≤ c ∧ c ≤ 'Z'.toNat) ∨ c = '_'.toNat
deriving Decidable

/-- A character that continues a name. -/
def NameChar (c : Nat) : Prop := NameStart c ∨ ('0'.toNat ≤ c ∧ c ≤ '9'.toNat) ∨ c = '.'.toNat
deriving Decidable

/-- A name; those that begin with `@` are local. -/
inductive Name : List Nat → Prop where
  | global {c : Nat} {w : List Nat} (h : NameStart c) (hw : ∀ x ∈ w, NameChar x) : Name (c :: w)
  | loc {c : Nat} {w : List Nat} (h : NameStart c) (hw : ∀ x ∈ w, NameChar x) : Name ('@'.toNat :: c :: w)

/-- The words that cannot be names. -/
def Reserved (w : List Nat) : Prop := (∃ n ∈ instrNames, Is n w) ∨ Is "not" w ∨ Is "x" w ∨ Is "y" w
deriving Decidable

/-- The next character, if there is one, is a byte with the property. -/
def Next (P : Nat → Prop) (s : List Nat) : Prop := ∀ c, s.head? = some c → c < 256 ∧ P c

/-- Neither part of a name nor a colon. -/
def WordEnd (s : List Nat) : Prop := Next (fun c => ¬ NameChar c ∧ c ≠ ':'.toNat) s

/-- A blank. -/
def Blank (c : Nat) : Prop := c = ' '.toNat ∨ c = '\t'.toNat
deriving Decidable

/-- The directives and other words that are one token wherever they stand. -/
def words : List (String × Tok) :=
  [(".byte", .byte), (".db", .byte), (".word", .word), (".dw", .word), (".dcw", .word), (".ds", .ds), (".equ", .equ),
   ("not", .not), (".repeat", .«repeat»), (".until", .«until»), (".end", .end'),
   (".printall", .printAll), (".for", .«for»), (".next", .next), (".step", .step), (".to", .to), (".downto", .downTo),
   (".str", .str'), (".text", .str'), (".string", .str'), (".org", .org), (".section", .sect), (".sect", .sect),
   (".endsection", .endSect), (".ends", .endSect), (".inc", .inc), (".load", .load), (".fill", .fill), (".wend", .wend),
   (".regx", .regX), (".regy", .regY), (".var", .«var»), ("x", .x), ("y", .y)]

/-- Operators and punctuation, with the characters that must not follow directly. -/
def signs : List (String × Tok × String) :=
  [("<<", .shl, ""), (">>", .shr, ""), ("<=", .le, ""), (">=", .ge, ""), ("==", .eq, ""), ("!=", .ne, ""),
   ("<>", .ne, ""), ("<", .lt, "<>="), (">", .gt, ">="), ("=", .assign, "="), ("||", .or, "+-|"),
   ("|", .bitOr, "+-|"), ("&&", .and, ""), ("&", .bitAnd, "&"), ("?", .print, "?"), ("??", .printAll, ""),
   ("/", .slash, "/*"), ("#", .hash, ""), (",", .comma, ""), ("(", .lpar, ""), (")", .rpar, ""), ("~", .tilde, ""),
   ("^", .caret, "")]

/-- The switches, with what follows the blanks. -/
def switches : List (String × String × LexEv) :=
  [(".6502", "on", .setCpu .c6502), (".65c02", "on", .setCpu .c65C02), (".illegal", "on", .setIllegal true),
   (".illegal", "off", .setIllegal false)]

/-- The token of a name. -/
def nameTok (isMacro : List Nat → Bool) (C : Scan) (w : List Nat) : Tok :=
  if isMacro w then .macsym w
  else match C.place with
    | .fileStart | .lineStart => if C.macros = 0 then .label w else .sym w
    | .macroName => .macsym w
    | .inside => .sym w

/-- A conditional word stands at the beginning of the text. -/
def CondWord (s : List Nat) : Prop := ∃ w r, s = w ++ r ∧ (Is ".if" w ∨ Is ".else" w ∨ Is ".endif" w)

/-- `Skipped n u s`: the text `u`, with `s` behind it, is passed over within a skipped block, `n` blocks being open in the
skipped text before it and none after it.  Everything is passed over but the words `.if`, `.else` and `.endif`, also in
comments and texts; `.ifdef` and `.ifndef` begin with `.if`. -/
inductive Skipped : Nat → List Nat → List Nat → Prop where
  | done {s} : Skipped 0 [] s
  | char {n c u s} (hc : ¬ CondWord (c :: u ++ s)) (h : Skipped n u s) : Skipped n (c :: u) s
  | «if» {n w u s} (hw : Is ".if" w) (h : Skipped (n + 1) u s) : Skipped n (w ++ u) s
  | «else» {n w u s} (hw : Is ".else" w) (h : Skipped (n + 1) u s) : Skipped (n + 1) (w ++ u) s
  | endIf {n w u s} (hw : Is ".endif" w) (h : Skipped n u s) : Skipped (n + 1) (w ++ u) s

/-- `.ifdef` and `.ifndef` with a name; `neg` for the second. -/
def IsCond (neg : Bool) (text name : List Nat) : Prop :=
  ∃ w b, text = w ++ b ++ name ∧ Is (if neg then ".ifndef" else ".ifdef") w ∧ b ≠ [] ∧ (∀ c ∈ b, Blank c) ∧ Name name

/-- The next character does not continue the name. -/
def NameEnd (s : List Nat) : Prop := Next (fun c => ¬ NameChar c) s

/-- `SourceTo isMacro known fin tail C ts s`: the text `s`, read in the situation `C` up to its part `tail`, consists of the
tokens and settings `ts`, and then the situation is one of those in `fin`.  `known` tells which names are, or are not,
defined. -/
inductive SourceTo (isMacro : List Nat → Bool) (known : List Nat → Option Bool) (fin : Scan → Prop) (tail : List Nat) :
    Scan → List LexEv → List Nat → Prop where
  | nil {C} (h : fin C := by exact rfl) : SourceTo isMacro known fin tail C [] tail
  | blanks {C ts w s} (hw : w ≠ []) (hb : ∀ c ∈ w, Blank c) (hs : Next (fun c => ¬ Blank c) s) (h : SourceTo isMacro known fin tail C ts s) :
      SourceTo isMacro known fin tail C ts (w ++ s)
  /-- `;` up to the end of the line -/
  | comment {C ts w s} (hw : ∀ c ∈ w, c ≠ '\n'.toNat) (hs : Next (· = '\n'.toNat) s) (h : SourceTo isMacro known fin tail C ts s) :
      SourceTo isMacro known fin tail C ts (';'.toNat :: w ++ s)
  /-- `//` up to the end of the line -/
  | slashes {C ts w s} (hw : ∀ c ∈ w, c ≠ '\n'.toNat) (hs : Next (· = '\n'.toNat) s) (h : SourceTo isMacro known fin tail C ts s) :
      SourceTo isMacro known fin tail C ts ('/'.toNat :: '/'.toNat :: w ++ s)
  /-- a comment over any number of lines; what follows it is not at the start of a line -/
  | block {C ts w s} (hw : ∀ u v, w ≠ u ++ bytes "*/" ++ v)
      (h : SourceTo isMacro known fin tail { C with place := .inside, line := C.line + (w.count '\n'.toNat : Nat) } ts s) :
      SourceTo isMacro known fin tail C ts (bytes "/*" ++ w ++ bytes "*/" ++ s)
  | newline {C ts s} (h : SourceTo isMacro known fin tail { C with place := .lineStart, line := C.line + 1 } ts s) :
      SourceTo isMacro known fin tail C (.tok (.eol (C.line + 1)) :: ts) ('\n'.toNat :: s)
  | word {C ts w s name t} (ht : (name, t) ∈ words) (hw : Is name w) (hs : WordEnd s) (h : SourceTo isMacro known fin tail C.mid ts s) :
      SourceTo isMacro known fin tail C (.tok t :: ts) (w ++ s)
  | mnemonic {C ts w s} {ins : Nat} (h1 : ins < instrNames.length) (hw : Is (Spec.mnemonic ins) w) (hs : WordEnd s)
      (h : SourceTo isMacro known fin tail C.mid ts s) : SourceTo isMacro known fin tail C (.tok (.opcode ins) :: ts) (w ++ s)
  | sign {C ts s w t no} (ht : (w, t, no) ∈ signs) (hs : Next (· ∉ bytes no) s) (h : SourceTo isMacro known fin tail C.mid ts s) :
      SourceTo isMacro known fin tail C (.tok t :: ts) (bytes w ++ s)
  | plus {C ts s} (hp : C.place ≠ .lineStart) (hs : Next (· ∉ bytes "+-|") s) (h : SourceTo isMacro known fin tail C.mid ts s) :
      SourceTo isMacro known fin tail C (.tok .plus :: ts) (bytes "+" ++ s)
  | minus {C ts s} (hp : C.place ≠ .lineStart) (hs : Next (· ∉ bytes "+-|") s) (h : SourceTo isMacro known fin tail C.mid ts s) :
      SourceTo isMacro known fin tail C (.tok .minus :: ts) (bytes "-" ++ s)
  /-- the location counter -/
  | star {C ts b s} (hb : ∀ c ∈ b, Blank c) (hs : Next (fun c => ¬ Blank c ∧ c ≠ '='.toNat ∧ c ≠ '.'.toNat) s)
      (h : SourceTo isMacro known fin tail C.mid ts (b ++ s)) : SourceTo isMacro known fin tail C (.tok .star :: ts) ('*'.toNat :: b ++ s)
  /-- `* =` -/
  | pcAssign {C ts b s} (hb : ∀ c ∈ b, Blank c) (hs : Next (· ≠ '='.toNat) s) (h : SourceTo isMacro known fin tail C.mid ts s) :
      SourceTo isMacro known fin tail C (.tok .pcAssign :: .tok .assign :: ts) ('*'.toNat :: b ++ '='.toNat :: s)
  /-- `.print`, unless the printer is switched -/
  | print {C ts w s} (hw : Is ".print" w) (hs : WordEnd s) (ho : Next (· ∉ bytes "oO") (s.drop 1))
      (h : SourceTo isMacro known fin tail C.mid ts s) : SourceTo isMacro known fin tail C (.tok .print :: ts) (w ++ s)
  | printSwitch {C ts w b v s t} (hw : Is ".print" w) (hb : Blank b)
      (hv : (Is "on" v ∧ t = Tok.printOn) ∨ (Is "off" v ∧ t = Tok.printOff)) (hs : WordEnd s)
      (h : SourceTo isMacro known fin tail C.mid ts s) : SourceTo isMacro known fin tail C (.tok t :: ts) (w ++ b :: v ++ s)
  | switch {C ts w b v s name state ev} (hsw : (name, state, ev) ∈ switches) (hw : Is name w) (hb : ∀ c ∈ b, Blank c)
      (hv : Is state v) (hs : WordEnd s) (h : SourceTo isMacro known fin tail C.mid ts s) : SourceTo isMacro known fin tail C (ev :: ts) (w ++ b ++ v ++ s)
  | c64 {C ts w s} (hw : Is ".c64" w) (hs : WordEnd s) (h : SourceTo isMacro known fin tail C.mid ts s) :
      SourceTo isMacro known fin tail C (.setC64 :: ts) (w ++ s)
  | hex {C ts ds s} (hd : ∀ d ∈ ds, Digit.ok 16 d) (hv : numVal 16 ds < 2147483648)
      (hs : Next (fun c => ∀ d, Digit.ok 16 d → c ≠ d.char) s) (h : SourceTo isMacro known fin tail C.mid ts s) :
      SourceTo isMacro known fin tail C (.tok (.int (numVal 16 ds)) :: ts) ('$'.toNat :: numText ds ++ s)
  | binary {C ts ds s} (hd : ∀ d ∈ ds, Digit.ok 2 d) (hv : numVal 2 ds < 2147483648)
      (hs : Next (fun c => ∀ d, Digit.ok 2 d → c ≠ d.char) s) (h : SourceTo isMacro known fin tail C.mid ts s) :
      SourceTo isMacro known fin tail C (.tok (.int (numVal 2 ds)) :: ts) ('%'.toNat :: numText ds ++ s)
  | decimal {C ts ds s} (hne : ds ≠ []) (hd : ∀ d ∈ ds, Digit.ok 10 d) (hv : numVal 10 ds < 2147483648)
      (hs : Next (fun c => (∀ d, Digit.ok 10 d → c ≠ d.char) ∧ c ∉ bytes "bB") s) (h : SourceTo isMacro known fin tail C.mid ts s) :
      SourceTo isMacro known fin tail C (.tok (.int (numVal 10 ds)) :: ts) (numText ds ++ s)
  /-- a character in single quotes -/
  | char {C ts c s} (hc : c < 256 ∧ c ≠ '\n'.toNat ∧ c ≠ '\''.toNat ∧ c ≠ '\\'.toNat) (h : SourceTo isMacro known fin tail C.mid ts s) :
      SourceTo isMacro known fin tail C (.tok (.int c) :: ts) ('\''.toNat :: c :: '\''.toNat :: s)
  /-- a character in double quotes is the same, not a text -/
  | char2 {C ts c s} (hc : c < 256 ∧ c ≠ '\n'.toNat ∧ c ≠ '"'.toNat ∧ c ≠ '\\'.toNat) (hs : Next (· ≠ '"'.toNat) s)
      (h : SourceTo isMacro known fin tail C.mid ts s) : SourceTo isMacro known fin tail C (.tok (.int c) :: ts) ('"'.toNat :: c :: '"'.toNat :: s)
  /-- a text of none or at least two characters -/
  | text {C ts is s} (hi : itemsOk is) (hl : ∀ c, StrItem.lit c ∈ is → c ≠ '"'.toNat ∧ c ≠ '\n'.toNat) (hn : is.length ≠ 1)
      (hs : Next (· ≠ '"'.toNat) s) (h : SourceTo isMacro known fin tail C.mid ts s) :
      SourceTo isMacro known fin tail C (.tok (.str ('"'.toNat :: (is.map StrItem.text).flatten ++ ['"'.toNat])) :: ts)
        ('"'.toNat :: (is.map StrItem.text).flatten ++ '"'.toNat :: s)
  | name {C ts w s} (hw : Name w) (hr : ¬ Reserved w) (hs : WordEnd s) (h : SourceTo isMacro known fin tail C.mid ts s) :
      SourceTo isMacro known fin tail C (.tok (nameTok isMacro C w) :: ts) (w ++ s)
  /-- a name with a colon -/
  | nameColon {C ts w s} (hw : Name w) (h : SourceTo isMacro known fin tail C.mid ts s) :
      SourceTo isMacro known fin tail C (.tok (nameTok isMacro C (w ++ [':'.toNat])) :: ts) (w ++ ':'.toNat :: s)
  /-- an anonymous label -/
  | anon {C ts w s} (hp : C.place = .lineStart) (hne : w ≠ []) (hw : (∀ c ∈ w, c = '+'.toNat) ∨ (∀ c ∈ w, c = '-'.toNat))
      (hs : Next (· ∉ bytes "+-|") s) (h : SourceTo isMacro known fin tail C.mid ts s) : SourceTo isMacro known fin tail C (.tok (.label w) :: ts) (w ++ s)
  /-- a reference to an anonymous label further away than the next -/
  | anonRef {C ts w s} (hp : C.place ≠ .lineStart) (hl : 2 ≤ w.length)
      (hw : (∀ c ∈ w, c = '+'.toNat) ∨ (∀ c ∈ w, c = '-'.toNat)) (hs : Next (· ∉ bytes "+-|") s)
      (h : SourceTo isMacro known fin tail C.mid ts s) : SourceTo isMacro known fin tail C (.tok (.sym w) :: ts) (w ++ s)
  | «if» {C ts w s} (hw : Is ".if" w) (hs : WordEnd s) (h : SourceTo isMacro known fin tail { C.mid with ifs := C.ifs + 1 } ts s) :
      SourceTo isMacro known fin tail C (.tok .if :: ts) (w ++ s)
  | «else» {C ts w s} (hw : Is ".else" w) (hi : 0 < C.ifs) (hs : WordEnd s) (h : SourceTo isMacro known fin tail C.mid ts s) :
      SourceTo isMacro known fin tail C (.tok .else :: ts) (w ++ s)
  | endIf {C ts w s} (hw : Is ".endif" w) (hi : C.ifs = 0 → C.conds = []) (hs : WordEnd s) (h : SourceTo isMacro known fin tail { C.mid with ifs := C.ifs - 1 } ts s) :
      SourceTo isMacro known fin tail C (.tok .endIf :: ts) (w ++ s)
  | «do» {C ts w s} (hw : Is ".do" w) (hs : WordEnd s) (h : SourceTo isMacro known fin tail { C.mid with dos := C.dos + 1 } ts s) :
      SourceTo isMacro known fin tail C (.tok .do :: ts) (w ++ s)
  /-- `.while` after `.do` -/
  | endDo {C ts w s} (hw : Is ".while" w) (hd : 0 < C.dos) (hs : WordEnd s)
      (h : SourceTo isMacro known fin tail { C.mid with dos := C.dos - 1 } ts s) : SourceTo isMacro known fin tail C (.tok .endDo :: ts) (w ++ s)
  | «while» {C ts w s} (hw : Is ".while" w) (hd : C.dos = 0) (hs : WordEnd s) (h : SourceTo isMacro known fin tail C.mid ts s) :
      SourceTo isMacro known fin tail C (.tok .while :: ts) (w ++ s)
  | «macro» {C ts w s} (hw : Is ".macro" w ∨ Is ".mac" w) (hs : WordEnd s)
      (h : SourceTo isMacro known fin tail { C with place := .macroName, macros := C.macros + 1 } ts s) :
      SourceTo isMacro known fin tail C (.tok .macro :: ts) (w ++ s)
  | endMacro {C ts w s} (hw : Is ".endmacro" w ∨ Is ".endm" w) (hm : 0 < C.macros) (hs : WordEnd s)
      (h : SourceTo isMacro known fin tail { C.mid with macros := C.macros - 1 } ts s) : SourceTo isMacro known fin tail C (.tok .endMacro :: ts) (w ++ s)
  /-- a parameter in a macro body -/
  | param {C ts ds s} (hm : 0 < C.macros) (hd : ∀ d ∈ ds, Digit.ok 10 d) (h0 : ∃ d r, ds = d :: r ∧ d.val ≠ 0)
      (hs : Next (fun c => ∀ d, Digit.ok 10 d → c ≠ d.char) s) (h : SourceTo isMacro known fin tail C.mid ts s) :
      SourceTo isMacro known fin tail C (.tok (.sym ('\\'.toNat :: numText ds)) :: ts) ('\\'.toNat :: numText ds ++ s)
  /-- the condition of a block holds -/
  | condOn {C ts w name s neg} (hw : IsCond neg w name) (hs : NameEnd s) (hk : known name = some (!neg))
      (h : SourceTo isMacro known fin tail { C.mid with ifs := 0, conds := C.ifs :: C.conds } ts s) :
      SourceTo isMacro known fin tail C ts (w ++ s)
  /-- it does not hold, and there is an `.else` -/
  | condOff {C ts w name u e s neg} (hw : IsCond neg w name) (hs : NameEnd (u ++ e ++ s)) (hk : known name = some neg)
      (hu : Skipped 0 u (e ++ s)) (he : Is ".else" e)
      (h : SourceTo isMacro known fin tail { C.mid with
        ifs := 0
        conds := C.ifs :: C.conds
        line := C.line + (u.count '\n'.toNat : Nat) } ts s) :
      SourceTo isMacro known fin tail C ts (w ++ (u ++ e ++ s))
  /-- it does not hold, and there is none; the block is not inside another one -/
  | condNone {C ts w name u e s neg} (hw : IsCond neg w name) (hs : NameEnd (u ++ e ++ s)) (hk : known name = some neg)
      (h1 : C.ifs = 0) (h2 : C.conds = []) (hu : Skipped 0 u (e ++ s)) (he : Is ".endif" e)
      (h : SourceTo isMacro known fin tail { C.mid with line := C.line + (u.count '\n'.toNat : Nat) } ts s) :
      SourceTo isMacro known fin tail C ts (w ++ (u ++ e ++ s))
  /-- the `.else` of a block whose condition holds; the block is not inside another one -/
  | condElse {C ts w u e s} (hw : Is ".else" w) (h1 : C.ifs = 0) (h2 : C.conds = [0]) (hs : WordEnd (u ++ e ++ s))
      (hu : Skipped 0 u (e ++ s)) (he : Is ".endif" e)
      (h : SourceTo isMacro known fin tail { C.mid with conds := [], line := C.line + (u.count '\n'.toNat : Nat) } ts s) :
      SourceTo isMacro known fin tail C ts (w ++ (u ++ e ++ s))
  /-- the `.endif` of a block -/
  | condEnd {C ts w s i is} (hw : Is ".endif" w) (h1 : C.ifs = 0) (h2 : C.conds = i :: is) (hs : WordEnd s)
      (h : SourceTo isMacro known fin tail { C.mid with ifs := i, conds := is } ts s) : SourceTo isMacro known fin tail C ts (w ++ s)

/-- `Source isMacro known C ts s`: the whole text `s`, read in the situation `C`, consists of the tokens and settings `ts`; at
the end no `.ifdef` block is open. -/
abbrev Source (isMacro : List Nat → Bool) (known : List Nat → Option Bool) : Scan → List LexEv → List Nat → Prop :=
  SourceTo isMacro known (fun C => C.conds = []) []

end Verif.Spec
