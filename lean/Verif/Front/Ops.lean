/-!
# `operations.json`

Verbatim copy of `mpp-front/src/lib/traslator/operations.json`, written by `tools/gen_ops.py`.
-/
namespace Mpp.Front

/-- A JavaScript string. Characters outside the basic plane are one `Char` here and two code units
there; none of the modelled functions looks inside such a pair. -/
abbrev Str := List Char

/-- `interface Instruction` (`traslator/index.ts:24-30`). -/
structure Operation where
  HEX : Str
  NEMO : Str
  REGEX : Str
  GRUPO : Nat
  ALLOC : Nat
  deriving DecidableEq

private def row (HEX NEMO REGEX : String) (GRUPO ALLOC : Nat) : Operation :=
  ⟨HEX.toList, NEMO.toList, REGEX.toList, GRUPO, ALLOC⟩

/-- `operations.json:1-617`, in the order of the file. -/
def operations : List Operation := [
  row "00" "MOV RB, RB" "^(MOV)\\s(RB),\\s?(RB)$" 1 1,
  row "01" "MOV RC, RB" "^(MOV)\\s(RC),\\s?(RB)$" 1 1,
  row "02" "MOV RD, RB" "^(MOV)\\s(RD),\\s?(RB)$" 1 1,
  row "03" "MOV RE, RB" "^(MOV)\\s(RE),\\s?(RB)$" 1 1,
  row "04" "MOV RB, RC" "^(MOV)\\s(RB),\\s?(RC)$" 1 1,
  row "05" "MOV RC, RC" "^(MOV)\\s(RC),\\s?(RC)$" 1 1,
  row "06" "MOV RD, RC" "^(MOV)\\s(RD),\\s?(RC)$" 1 1,
  row "07" "MOV RE, RC" "^(MOV)\\s(RE),\\s?(RC)$" 1 1,
  row "08" "MOV RB, RD" "^(MOV)\\s(RB),\\s?(RD)$" 1 1,
  row "09" "MOV RC, RD" "^(MOV)\\s(RC),\\s?(RD)$" 1 1,
  row "0A" "MOV RD, RD" "^(MOV)\\s(RD),\\s?(RD)$" 1 1,
  row "0B" "MOV RE, RD" "^(MOV)\\s(RE),\\s?(RD)$" 1 1,
  row "0C" "MOV RB, RE" "^(MOV)\\s(RB),\\s?(RE)$" 1 1,
  row "0D" "MOV RC, RE" "^(MOV)\\s(RC),\\s?(RE)$" 1 1,
  row "0E" "MOV RD, RE" "^(MOV)\\s(RD),\\s?(RE)$" 1 1,
  row "0F" "MOV RE, RE" "^(MOV)\\s(RE),\\s?(RE)$" 1 1,
  row "10" "MOV RB, AC" "^(MOV)\\s(RB),\\s?(AC)$" 1 1,
  row "11" "MOV RC, AC" "^(MOV)\\s(RC),\\s?(AC)$" 1 1,
  row "12" "MOV RD, AC" "^(MOV)\\s(RD),\\s?(AC)$" 1 1,
  row "13" "MOV RE, AC" "^(MOV)\\s(RE),\\s?(AC)$" 1 1,
  row "18" "SUB RB" "^(SUB)\\s(RB)$" 2 1,
  row "19" "SUB RC" "^(SUB)\\s(RC)$" 2 1,
  row "1A" "SUB RD" "^(SUB)\\s(RD)$" 2 1,
  row "1B" "SUB RE" "^(SUB)\\s(RE)$" 2 1,
  row "1C" "CMP RB" "^(CMP)\\s(RB)$" 2 1,
  row "1D" "CMP RC" "^(CMP)\\s(RC)$" 2 1,
  row "1E" "CMP RD" "^(CMP)\\s(RD)$" 2 1,
  row "1F" "CMP RE" "^(CMP)\\s(RE)$" 2 1,
  row "20" "AND RB" "^(AND)\\s(RB)$" 2 1,
  row "21" "AND RC" "^(AND)\\s(RC)$" 2 1,
  row "22" "AND RD" "^(AND)\\s(RD)$" 2 1,
  row "23" "AND RE" "^(AND)\\s(RE)$" 2 1,
  row "24" "OR RB" "^(OR)\\s(RB)$" 2 1,
  row "25" "OR RC" "^(OR)\\s(RC)$" 2 1,
  row "26" "OR RD" "^(OR)\\s(RD)$" 2 1,
  row "27" "OR RE" "^(OR)\\s(RE)$" 2 1,
  row "28" "XOR RB" "^(XOR)\\s(RB)$" 2 1,
  row "29" "XOR RC" "^(XOR)\\s(RC)$" 2 1,
  row "2A" "XOR RD" "^(XOR)\\s(RD)$" 2 1,
  row "2B" "XOR RE" "^(XOR)\\s(RE)$" 2 1,
  row "2C" "INC RB" "^(INC)\\s(RB)$" 2 1,
  row "2D" "INC RC" "^(INC)\\s(RC)$" 2 1,
  row "2E" "INC RD" "^(INC)\\s(RD)$" 2 1,
  row "2F" "INC RE" "^(INC)\\s(RE)$" 2 1,
  row "30" "ADD RB" "^(ADD)\\s(RB)$" 2 1,
  row "31" "ADD RC" "^(ADD)\\s(RC)$" 2 1,
  row "32" "ADD RD" "^(ADD)\\s(RD)$" 2 1,
  row "33" "ADD RE" "^(ADD)\\s(RE)$" 2 1,
  row "40" "MOV AC, RB" "^(MOV)\\s(AC),\\s?(RB)$" 3 1,
  row "41" "MOV AC, RC" "^(MOV)\\s(AC),\\s?(RC)$" 3 1,
  row "42" "MOV AC, RD" "^(MOV)\\s(AC),\\s?(RD)$" 3 1,
  row "43" "MOV AC, RE" "^(MOV)\\s(AC),\\s?(RE)$" 3 1,
  row "44" "MOV AC, AC" "^(MOV)\\s(AC),\\s?(AC)$" 3 1,
  row "45" "ADD AC" "^(ADD)\\s(AC)$" 3 1,
  row "46" "SUB AC" "^(SUB)\\s(AC)$" 3 1,
  row "47" "CMP AC" "^(CMP)\\s(AC)$" 3 1,
  row "48" "AND AC" "^(AND)\\s(AC)$" 3 1,
  row "49" "OR AC" "^(OR)\\s(AC)$" 3 1,
  row "4A" "XOR AC" "^(XOR)\\s(AC)$" 3 1,
  row "4B" "INC AC" "^(INC)\\s(AC)$" 3 1,
  row "80" "CMA" "^(CMA)$" 3 1,
  row "60" "MOV inm, RB" "^(MOV)\\s(\\w{1,}),\\s?(RB)$" 4 2,
  row "61" "MOV inm, RC" "^(MOV)\\s(\\w{1,}),\\s?(RC)$" 4 2,
  row "62" "MOV inm, RD" "^(MOV)\\s(\\w{1,}),\\s?(RD)$" 4 2,
  row "63" "MOV inm, RE" "^(MOV)\\s(\\w{1,}),\\s?(RE)$" 4 2,
  row "64" "MOV inm, AC" "^(MOV)\\s(\\w{1,}),\\s?(AC)$" 4 2,
  row "65" "ADD inm" "^(ADD)\\s(\\w{1,})$" 4 2,
  row "66" "SUB inm" "^(SUB)\\s(\\w{1,})$" 4 2,
  row "67" "CMP inm" "^(CMP)\\s(\\w{1,})$" 4 2,
  row "68" "AND inm" "^(AND)\\s(\\w{1,})$" 4 2,
  row "69" "OR inm" "^(OR)\\s(\\w{1,})$" 4 2,
  row "6A" "XOR inm" "^(XOR)\\s(\\w{1,})$" 4 2,
  row "70" "LDA dir" "^(LDA)\\s(\\w{1,})$" 5 3,
  row "71" "STA dir" "^(STA)\\s(\\w{1,})$" 5 3,
  row "90" "STAX" "^(STAX)$" 5 1,
  row "B0" "LDAX" "^(LDAX)$" 5 1,
  row "C1" "PUSH" "^(PUSH)$" 5 1,
  row "C2" "POP" "^(POP)$" 5 1,
  row "C3" "INISP dir" "^(INISP)\\s(\\w{1,})$" 5 3,
  row "72" "BEQ dir" "^(BEQ)\\s(\\w{1,})$" 6 3,
  row "73" "BC dir" "^(BC)\\s(\\w{1,})$" 6 3,
  row "74" "JMP dir" "^(JMP)\\s(\\w{1,})$" 6 3,
  row "81" "LFA" "^(LFA)$" 6 1,
  row "82" "SFA" "^(SFA)$" 6 1,
  row "C4" "CALL dir" "^(CALL)\\s(\\w{1,})$" 6 3,
  row "C5" "RET" "^(RET)$" 6 1,
  row "C0" "IRET" "^(IRET)$" 6 1,
  row "FF" "FIN" "^(FIN)$" 0 1]

end Mpp.Front
