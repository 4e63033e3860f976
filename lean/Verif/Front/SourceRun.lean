import Verif.Front.AsmSpec
/-!
# What a program means, statement by statement

A specification: the effect of each statement of a program as the documentation explains it
(`docs/src/pages/es/instructions/*.mdx`), on a machine that counts statements. There is no machine code and no
program counter. A label names a statement (the first one that carries it). Addresses matter in three places: a
label or a number used as the address of data, a jump to a number, and the return address that CALL pushes; the
program lies at the beginning of memory.

The description gives up (`none`) where the text of the program is no longer what runs: when a statement writes on
the program, when a jump or return leads to no statement, or when the last statement is left behind. It also gives up
when the stack would pass an end of memory (C08, C17), and it stops at FIN.
-/
namespace Mpp.Front

/-- The state in terms of the source: the number of statements before the current one, the registers and the memory. -/
structure Src where
  pos : Nat
  ac : BitVec 8
  b : BitVec 8
  c : BitVec 8
  d : BitVec 8
  e : BitVec 8
  sp : BitVec 16
  fc : Bool
  fz : Bool
  mem : BitVec 16 → BitVec 8

/-- The statement that a label names. -/
def labelled (prog : List Stmt) (l : Str) : Option Nat := prog.findIdx? fun st => st.label = some l

/-- Number of bytes before the statement `i`. -/
def place (prog : List Stmt) (i : Nat) : Nat := sizeOf (prog.take i)

/-- The statement that begins at an address. -/
def startsAt (prog : List Stmt) (a : Nat) : Option Nat :=
  (List.range prog.length).find? fun i => place prog i = a

/-- Where a jump with this operand leads. -/
def Arg.dest (prog : List Stmt) : Arg → Option Nat
  | .none => Option.none
  | .num n => startsAt prog n
  | .label l => labelled prog l

/-- The address that an operand stands for. -/
def Arg.addr (prog : List Stmt) : Arg → Option (BitVec 16)
  | .none => Option.none
  | .num n => some (BitVec.ofNat 16 n)
  | .label l => (labelled prog l).map fun i => BitVec.ofNat 16 (place prog i)

namespace Src

def get (s : Src) : G → BitVec 8
  | .b => s.b
  | .c => s.c
  | .d => s.d
  | .e => s.e

/-- The value of the operand of MOV and of the operations. -/
def value (s : Src) (arg : Arg) : Operand → Option (BitVec 8)
  | .reg g => some (s.get g)
  | .ac => some s.ac
  | .imm => match arg with
    | .num n => some (BitVec.ofNat 8 n)
    | _ => none

def put (s : Src) (x : BitVec 8) : Dest → Src
  | .ac => { s with ac := x }
  | .reg .b => { s with b := x }
  | .reg .c => { s with c := x }
  | .reg .d => { s with d := x }
  | .reg .e => { s with e := x }

def look (s : Src) : Dest → BitVec 8
  | .ac => s.ac
  | .reg g => s.get g

/-- A result in AC that cannot carry. -/
def logic (s : Src) (x : BitVec 8) : Src := { s with ac := x, fc := false, fz := x == 0 }

/-- ADD, SUB, CMP, AND, OR and XOR. -/
def compute (s : Src) (x : BitVec 8) : AluOp → Src
  | .add => { s with ac := s.ac + x, fc := decide (255 < s.ac.toNat + x.toNat), fz := s.ac + x == 0 }
  | .sub => { s with ac := s.ac - x, fc := decide (s.ac < x), fz := s.ac == x }
  | .cmp => { s with fc := decide (s.ac < x), fz := s.ac == x }
  | .and => s.logic (s.ac &&& x)
  | .or => s.logic (s.ac ||| x)
  | .xor => s.logic (s.ac ^^^ x)

/-- Write into memory, not on the program. -/
def write (prog : List Stmt) (s : Src) (a : BitVec 16) (x : BitVec 8) : Option Src :=
  if a.toNat < sizeOf prog then none else some { s with mem := fun i => if i = a then x else s.mem i }

def push (prog : List Stmt) (s : Src) (x : BitVec 8) : Option Src :=
  if s.sp = 0 then none else { s with sp := s.sp - 1 }.write prog (s.sp - 1) x

def pop (s : Src) : Option (BitVec 8 × Src) :=
  if s.sp = 0xFFFF then none else some (s.mem s.sp, { s with sp := s.sp + 1 })

/-- Come back to where the popped address points. -/
def back (prog : List Stmt) (s : Src) : Option Src :=
  s.pop.bind fun lo => lo.2.pop.bind fun hi =>
    (startsAt prog (256 * hi.1.toNat + lo.1.toNat)).map fun i => { hi.2 with pos := i }

/-- One statement. -/
def step (prog : List Stmt) (s : Src) : Option Src :=
  prog[s.pos]?.bind fun st =>
    let t := { s with pos := s.pos + 1 }
    match st.instr with
    | .mov src dst => (s.value st.arg src).map fun x => t.put x dst
    | .alu op src => (s.value st.arg src).map fun x => t.compute x op
    | .inc dst => some { t.put (s.look dst + 1) dst with fc := false, fz := s.look dst + 1 == 0 }
    | .cma => some (t.logic (~~~ s.ac))
    | .lfa => some { t with ac := (if s.fc then 128 else 0) + (if s.fz then 1 else 0) }
    | .sfa => some { t with fc := s.ac.getLsbD 7, fz := s.ac.getLsbD 0 }
    | .lda => (st.arg.addr prog).map fun a => { t with ac := s.mem a }
    | .sta => (st.arg.addr prog).bind fun a => t.write prog a s.ac
    | .ldax => some { t with ac := s.mem (s.d ++ s.e) }
    | .stax => t.write prog (s.d ++ s.e) s.ac
    | .jmp => (st.arg.dest prog).map fun i => { t with pos := i }
    | .beq => if s.fz then (st.arg.dest prog).map fun i => { t with pos := i } else some t
    | .bc => if s.fc then (st.arg.dest prog).map fun i => { t with pos := i } else some t
    | .inisp => (st.arg.addr prog).map fun a => { t with sp := a }
    | .push => t.push prog s.ac
    | .pop => t.pop.map fun x => { x.2 with ac := x.1 }
    | .call => (st.arg.dest prog).bind fun i =>
        (t.push prog (BitVec.ofNat 8 (place prog (s.pos + 1) / 256))).bind fun t =>
          (t.push prog (BitVec.ofNat 8 (place prog (s.pos + 1)))).map fun t => { t with pos := i }
    | .ret => s.back prog
    | .iret => (s.back prog).bind fun t => t.pop.map fun f =>
        { f.2 with fc := f.1.getLsbD 7, fz := f.1.getLsbD 0 }
    | .fin => none

/-- `n` statements. -/
def run (prog : List Stmt) : Nat → Src → Option Src
  | 0, s => some s
  | n + 1, s => (s.step prog).bind (run prog n)

end Src
end Mpp.Front
