import Verif.Front.AsmSpec
/-!
# The lines of code on the pages about instructions

The texts behind the buttons "Probar código" on the pages `docs/src/pages/es/instructions/*.mdx`, and the parts of the
program in `docs/src/pages/es/examples/multiplication.mdx`.
-/
namespace Mpp.Front

/-- A text behind a button, with its statement and the text of the operand. -/
structure Snippet where
  text : String
  stmt : Stmt
  word : String

/-- The attribute `code` of the elements `Code`, page after page. -/
def snippets : List Snippet :=
  [-- `ADD.mdx:24`, `43`, `62`
   ⟨"ADD RB", ⟨none, .alu .add (.reg .b), .none⟩, ""⟩, ⟨"ADD 0F", ⟨none, .alu .add .imm, .num 0x0F⟩, "0F"⟩,
   ⟨"ADD AC", ⟨none, .alu .add .ac, .none⟩, ""⟩,
   -- `AND.mdx:18`, `37`, `56`
   ⟨"AND 0F", ⟨none, .alu .and .imm, .num 0x0F⟩, "0F"⟩, ⟨"AND RB", ⟨none, .alu .and (.reg .b), .none⟩, ""⟩,
   ⟨"AND AC", ⟨none, .alu .and .ac, .none⟩, ""⟩,
   -- `CMP.mdx:37`, `66`, `86`, `106`
   ⟨"CMP RB", ⟨none, .alu .cmp (.reg .b), .none⟩, ""⟩, ⟨"CMP 0F", ⟨none, .alu .cmp .imm, .num 0x0F⟩, "0F"⟩,
   -- `INC.mdx:22`, `41`
   ⟨"INC RB", ⟨none, .inc (.reg .b), .none⟩, ""⟩, ⟨"INC AC", ⟨none, .inc .ac, .none⟩, ""⟩,
   -- `LDA.mdx:24`
   ⟨"LDA 001F", ⟨none, .lda, .num 0x001F⟩, "001F"⟩,
   -- `MOV.mdx:22`, `41`, `60`, `79`
   ⟨"MOV 0F, RB", ⟨none, .mov .imm (.reg .b), .num 0x0F⟩, "0F"⟩,
   ⟨"MOV RB, RC", ⟨none, .mov (.reg .b) (.reg .c), .none⟩, ""⟩,
   ⟨"MOV RB, AC", ⟨none, .mov (.reg .b) .ac, .none⟩, ""⟩,
   ⟨"MOV 0F, AC", ⟨none, .mov .imm .ac, .num 0x0F⟩, "0F"⟩,
   -- `OR.mdx:18`, `37`, `56`
   ⟨"OR 0F", ⟨none, .alu .or .imm, .num 0x0F⟩, "0F"⟩, ⟨"OR RB", ⟨none, .alu .or (.reg .b), .none⟩, ""⟩,
   ⟨"OR AC", ⟨none, .alu .or .ac, .none⟩, ""⟩,
   -- `STA.mdx:22`
   ⟨"STA 001F", ⟨none, .sta, .num 0x001F⟩, "001F"⟩,
   -- `SUB.mdx:24`, `43`, `62`
   ⟨"SUB RB", ⟨none, .alu .sub (.reg .b), .none⟩, ""⟩, ⟨"SUB 0F", ⟨none, .alu .sub .imm, .num 0x0F⟩, "0F"⟩,
   ⟨"SUB AC", ⟨none, .alu .sub .ac, .none⟩, ""⟩,
   -- `XOR.mdx:18`, `37`, `56`
   ⟨"XOR 0F", ⟨none, .alu .xor .imm, .num 0x0F⟩, "0F"⟩, ⟨"XOR RB", ⟨none, .alu .xor (.reg .b), .none⟩, ""⟩,
   ⟨"XOR AC", ⟨none, .alu .xor .ac, .none⟩, ""⟩]

/-- `multiplication.mdx:35` with other numerals. -/
def movesText (x y : Str) : Str := "MOV ".toList ++ x ++ ", RB\nMOV ".toList ++ y ++ ", RC".toList

/-- `multiplication.mdx:47` -/
def inispText : Str := "INISP 1234".toList

/-- `multiplication.mdx:53` -/
def pushText : Str := "MOV RB, AC\nPUSH".toList

/-- `multiplication.mdx:59` -/
def loopText : Str :=
  "TSTART MOV RC, AC\nCMP 01\nBEQ TFIN\nPOP\nADD RB\nPUSH\nMOV RC, AC\nSUB 01\nMOV AC, RC\nJMP TSTART\nTFIN POP".toList

end Mpp.Front
