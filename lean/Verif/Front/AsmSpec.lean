import Verif.Front.Ops
import Verif.Isa
import Mathlib.Data.List.Forall2
/-!
# The assembly language, as a specification

What a source text means, told without regular expressions, the operation table or the functions of
`traslator/index.ts`. Sources: `docs/src/pages/es/instructions/*.mdx`, the panel on labels in
`CodeEditor.tsx:246-260`, and the instruction set in `Verif/Isa.lean`.
-/
namespace Mpp.Front

/-! ## Spelling -/

def _root_.Mpp.G.name : G → Str
  | .b => "RB".toList
  | .c => "RC".toList
  | .d => "RD".toList
  | .e => "RE".toList

def acName : Str := "AC".toList

def _root_.Mpp.AluOp.name : AluOp → Str
  | .add => "ADD".toList
  | .sub => "SUB".toList
  | .cmp => "CMP".toList
  | .and => "AND".toList
  | .or => "OR".toList
  | .xor => "XOR".toList

/-- A place for an operand: a register or a value. -/
inductive Slot
  | name (s : Str)
  | value
  deriving DecidableEq

def Slot.ofOperand : Operand → Slot
  | .reg g => .name (G.name g)
  | .ac => .name acName
  | .imm => .value

def Slot.ofDest : Dest → Slot
  | .reg g => .name (G.name g)
  | .ac => .name acName

/-- The mnemonic of an instruction and its operands from left to right. -/
def syntaxOf : Instr → Str × List Slot
  | .mov src dst => ("MOV".toList, [.ofOperand src, .ofDest dst])
  | .alu op src => (AluOp.name op, [.ofOperand src])
  | .inc dst => ("INC".toList, [.ofDest dst])
  | .cma => ("CMA".toList, [])
  | .lfa => ("LFA".toList, [])
  | .sfa => ("SFA".toList, [])
  | .lda => ("LDA".toList, [.value])
  | .sta => ("STA".toList, [.value])
  | .ldax => ("LDAX".toList, [])
  | .stax => ("STAX".toList, [])
  | .beq => ("BEQ".toList, [.value])
  | .bc => ("BC".toList, [.value])
  | .jmp => ("JMP".toList, [.value])
  | .inisp => ("INISP".toList, [.value])
  | .push => ("PUSH".toList, [])
  | .pop => ("POP".toList, [])
  | .call => ("CALL".toList, [.value])
  | .ret => ("RET".toList, [])
  | .iret => ("IRET".toList, [])
  | .fin => ("FIN".toList, [])

/-- Equal up to the case of ASCII letters. -/
def SameName (s t : Str) : Prop := s.map Char.toUpper = t.map Char.toUpper

instance (s t : Str) : Decidable (SameName s t) := by unfold SameName; infer_instance

/-- Blanks, as in ECMAScript: white space and line terminators. -/
def Blank (c : Char) : Prop :=
  c.toNat ∈ [0x09, 0x0A, 0x0B, 0x0C, 0x0D, 0x20, 0xA0, 0x1680, 0x2000, 0x2001, 0x2002, 0x2003, 0x2004,
    0x2005, 0x2006, 0x2007, 0x2008, 0x2009, 0x200A, 0x2028, 0x2029, 0x202F, 0x205F, 0x3000, 0xFEFF]

instance (c : Char) : Decidable (Blank c) := by unfold Blank; infer_instance

/-- Line terminators of ECMAScript other than the newline. -/
def OddTerm (c : Char) : Prop := c.toNat ∈ [0x0D, 0x2028, 0x2029]

instance (c : Char) : Decidable (OddTerm c) := by unfold OddTerm; infer_instance

/-- Letters, digits and the underscore. -/
def WordChar (c : Char) : Prop := c.isAlphanum = true ∨ c = '_'

/-- A token `t` fills a slot; `w` is the text of the value. -/
def Slot.Filled (w t : Str) : Slot → Prop
  | .name s => SameName t s
  | .value => t = w

/-- `s` is the instruction `i` with value text `w`: mnemonic, one blank, operands separated by a
comma that may be followed by one blank. -/
inductive Spells (i : Instr) (w : Str) : Str → Prop
  | none {m : Str} (sl : (syntaxOf i).2 = []) (hm : SameName m (syntaxOf i).1) : Spells i w m
  | one {m t : Str} {b : Char} {x : Slot} (sl : (syntaxOf i).2 = [x])
      (hm : SameName m (syntaxOf i).1) (hb : Blank b) (ht : x.Filled w t) :
      Spells i w (m ++ b :: t)
  | two {m t u g : Str} {b : Char} {x y : Slot} (sl : (syntaxOf i).2 = [x, y])
      (hm : SameName m (syntaxOf i).1) (hb : Blank b) (ht : x.Filled w t)
      (hg : g = [] ∨ ∃ c, Blank c ∧ g = [c]) (hu : y.Filled w u) :
      Spells i w (m ++ b :: (t ++ ',' :: (g ++ u)))

/-! ## Values -/

/-- Number written in hexadecimal digits, of either case. -/
def digitValue (c : Char) : Option Nat :=
  (("0123456789abcdef".toList.idxOf? c).or ("0123456789ABCDEF".toList.idxOf? c))

/-- `s` consists of hexadecimal digits and their value is `n`. -/
inductive HexValue : Str → Nat → Prop
  | digit {c : Char} {d : Nat} (h : digitValue c = some d) : HexValue [c] d
  | more {s : Str} {c : Char} {n d : Nat} (hs : HexValue s n) (h : digitValue c = some d) :
      HexValue (s ++ [c]) (16 * n + d)

/-- Kind of operand an instruction takes from the bytes after the opcode. -/
inductive Kind
  | none | byte | addr
  deriving DecidableEq

def kindOf (i : Instr) : Kind :=
  match i.size with
  | 2 => .byte
  | 3 => .addr
  | _ => .none

/-- Operand of a statement: nothing, a number, a label. -/
inductive Arg
  | none
  | num (n : Nat)
  | label (l : Str)
  deriving DecidableEq

/-- A statement of a program. -/
structure Stmt where
  label : Option Str
  instr : Instr
  arg : Arg
  deriving DecidableEq

/-- Labels begin with a capital T and contain no space. -/
def IsLabel (l : Str) : Prop := l.head? = some 'T' ∧ ' ' ∉ l

/-- `w` is the text of the operand `a` of `i`. A number is written in hexadecimal. A byte operand
must not be the name of a register: those texts denote the instruction on the register. A label
operand consists of word characters. -/
def ArgText (i : Instr) (w : Str) (a : Arg) : Prop :=
  match kindOf i, a with
  | .none, .none => True
  | .byte, .num n => HexValue w n ∧ ¬ SameName w acName
  | .addr, .num n => HexValue w n
  | .byte, .label l => w = l ∧ IsLabel l ∧ ∀ c ∈ l, WordChar c
  | .addr, .label l => w = l ∧ IsLabel l ∧ ∀ c ∈ l, WordChar c
  | _, _ => False

/-- The line `line` (without surrounding blanks and comment) is the statement `st`: a label and a
space if there is a label, then the instruction. -/
def Reads (line : Str) (st : Stmt) : Prop :=
  ∃ w s, Spells st.instr w s ∧ ArgText st.instr w st.arg ∧
    match st.label with
    | none => line = s
    | some l => IsLabel l ∧ line = l ++ ' ' :: s

/-! ## Lines of a text -/

/-- `core` is the line without the comment and without the blanks around what is left. -/
structure Core (line core : Str) : Prop where
  /-- the line is blanks, `core`, blanks and perhaps a comment -/
  parts : ∃ a b c, line = a ++ core ++ b ++ c ∧ (∀ x ∈ a, Blank x) ∧ (∀ x ∈ b, Blank x) ∧
    (c = [] ∨ c.head? = some '#')
  noHash : '#' ∉ core
  first : ∀ x, core.head? = some x → ¬ Blank x
  last : ∀ x, core.getLast? = some x → ¬ Blank x

/-- `lines` are the lines of `text`. -/
inductive Lines : Str → List Str → Prop
  | last {l : Str} (h : '\n' ∉ l) : Lines l [l]
  | cons {l t : Str} {ls : List Str} (h : '\n' ∉ l) (rest : Lines t ls) :
      Lines (l ++ '\n' :: t) (l :: ls)

/-- `prog` is the program written in `text`: one statement for each line that is not blank. The
lines in `text` contain no line terminators but the newline, except around the statement. -/
def Source (text : Str) (prog : List Stmt) : Prop :=
  ∃ lines cores, Lines text lines ∧ List.Forall₂ Core lines cores ∧
    (∀ c ∈ cores, ∀ x ∈ c, ¬ OddTerm x) ∧
    List.Forall₂ Reads (cores.filter fun c => c ≠ []) prog

/-! ## Meaning -/

/-- Bytes of a program (or of its beginning). -/
def sizeOf (prog : List Stmt) : Nat := (prog.map fun s => s.instr.size).sum

/-- `a` is the address of the first statement labelled `l`. -/
def LabelAt (prog : List Stmt) (l : Str) (a : Nat) : Prop :=
  ∃ before st after, prog = before ++ st :: after ∧ st.label = some l ∧
    (∀ x ∈ before, x.label ≠ some l) ∧ a = sizeOf before

/-- Every number is in range and every label operand is the label of some statement. -/
def Valid (prog : List Stmt) : Prop :=
  ∀ st ∈ prog, match st.arg with
    | .none => True
    | .num n => n < 256 ^ (st.instr.size - 1)
    | .label l => ∃ s ∈ prog, s.label = some l

/-- No label stands for a byte. -/
def LabelsAreAddresses (prog : List Stmt) : Prop :=
  ∀ st ∈ prog, ∀ l, st.arg = .label l → kindOf st.instr = .addr

/-- The number an operand stands for. -/
def ArgIs (prog : List Stmt) : Arg → Nat → Prop
  | .none, _ => True
  | .num n, v => v = n
  | .label l, v => LabelAt prog l v

/-- `bs` is the machine code of a statement of `prog`: an opcode that the CPU decodes as the
instruction, and the operand, high byte first. -/
def StmtCode (prog : List Stmt) (st : Stmt) (bs : List (BitVec 8)) : Prop :=
  ∃ op rest v, bs = op :: rest ∧ decode op = some st.instr ∧ ArgIs prog st.arg v ∧
    match kindOf st.instr with
    | .none => rest = []
    | .byte => v < 256 ∧ rest = [BitVec.ofNat 8 v]
    | .addr => v < 65536 ∧ rest = [BitVec.ofNat 8 (v / 256), BitVec.ofNat 8 (v % 256)]

/-- `bs` is the machine code of `prog`, one list of bytes for each statement. -/
def Code (prog : List Stmt) (bs : List (List (BitVec 8))) : Prop :=
  List.Forall₂ (StmtCode prog) prog bs

/-- Two hexadecimal digits with the value `b`. -/
def HexByte (s : Str) (b : BitVec 8) : Prop := s.length = 2 ∧ HexValue s b.toNat

end Mpp.Front
