{"id": "C01", "title": "MOV instructions copy exactly one register", "statement": "Running one MOV instruction (register to register, register to AC, AC to register, immediate to register or AC) from an instruction boundary puts the source value in the destination, advances PC past the instruction, and changes no other programmer-visible register, no flag and no memory cell.", "quantifier": "every opcode of the MOV group, every value of every register, flag and memory cell, every PC (at the end of memory PC stays at 0xFFFF, see C17), every reachable internal bus state", "why_tests_cant": "The product of 256 opcodes, 13 registers and 65536 cells plus stale bus contents left by whatever ran before cannot be enumerated; the existing tests cover single components only.", "anchors": ["mpp-cpu/src/lib/components/cu/cu.c:run_cu", "mpp-cpu/src/lib/components/cu/rom.c:ROM", "mpp-cpu/src/lib/components/cu/seq.c:truth_table", "mpp-cpu/src/lib/components/greg.c:run_greg", "mpp-cpu/src/lib/components/op2.c:run_op2", "mpp-cpu/src/lib/components/acumm.c:run_acumm"]}
{"id": "C02", "title": "ADD, SUB and CMP compute modulo 256 with the documented flags", "statement": "Running ADD/SUB/CMP X from an instruction boundary sets AC to AC+X resp. AC-X modulo 256 (CMP leaves AC alone), sets FC exactly when the true sum exceeds 255 resp. the true difference is negative, sets FZ exactly when the 8-bit result is zero, and changes no other programmer-visible register and no memory cell.", "quantifier": "every operand form (register, AC, immediate), every AC and operand value, every prior flag value and every reachable internal bus state", "why_tests_cant": "The result must be right for all 2^16 operand pairs in every machine context, and the ALU is re-run several times inside a cycle with the new AC, so a correct value in one context says nothing about another.", "anchors": ["mpp-cpu/src/lib/components/alu.c:run_alu", "mpp-cpu/src/lib/components/acumm.c:run_acumm", "mpp-cpu/src/lib/components/flags.c:run_flags", "mpp-cpu/src/lib/components/mxfld7.c:run_mxfld7", "mpp-cpu/src/lib/components/mxfld0.c:run_mxfld0", "docs/src/pages/es/instructions/CMP.mdx"]}
{"id": "C03", "title": "AND, OR and XOR are bitwise, clear FC and set FZ on zero", "statement": "Running AND/OR/XOR X sets AC to the bitwise combination, FC to 0 and FZ exactly when the result is zero; nothing else the programmer can see changes apart from PC.", "quantifier": "every operand form and value, every reachable machine state", "why_tests_cant": "Same reason: quantifies over all operand pairs and all contexts.", "anchors": ["mpp-cpu/src/lib/components/alu.c:run_alu", "mpp-cpu/src/lib/components/cu/rom.c:ROM", "mpp-cpu/src/lib/components/cu/seq.c:truth_table"]}
{"id": "C04", "title": "INC and CMA wrap modulo 256, clear FC and set FZ on zero", "statement": "Running INC on a register or AC adds one modulo 256 to that register; CMA complements the 8 bits of AC; both set FC to 0 and FZ exactly when the result is zero and leave everything else visible (apart from PC) unchanged.", "quantifier": "every target register, every value including 0xFF, every reachable machine state", "why_tests_cant": "All values and all contexts; the wrap at 0xFF relies on a truncation loop whose effect on flags is order dependent.", "anchors": ["mpp-cpu/src/lib/components/alu.c:run_alu", "mpp-cpu/src/lib/components/cu/rom.c:ROM"]}
{"id": "C05", "title": "LFA and SFA move the flags between bit 7 / bit 0 of AC", "statement": "LFA puts FC in bit 7, FZ in bit 0 and zero in the other bits of AC without touching the flags; SFA sets FC to bit 7 and FZ to bit 0 of AC without touching AC; SFA after LFA restores the same flags.", "quantifier": "every AC value, every flag value, every reachable machine state (including any stale data on the data bus)", "why_tests_cant": "LFA transiently loads whatever is on the data bus into AC; only a proof over all bus states shows that this never survives the cycle.", "anchors": ["mpp-cpu/src/lib/components/controllers/flagsinta.c:cll_run_flagsinta", "mpp-cpu/src/lib/components/flags.c:run_flags", "mpp-cpu/src/lib/components/cu/cu.c:run_acumm_or_flags"]}
{"id": "C06", "title": "LDA, STA, LDAX and STAX access exactly the addressed cell", "statement": "LDA/LDAX load AC with the cell addressed by the two operand bytes (high byte first) resp. by D:E; STA/STAX store AC there and change no other cell; flags, B..E and SP are untouched.", "quantifier": "every address, every AC and memory content, every reachable machine state", "why_tests_cant": "65536 addresses times all contents; the memory component performs extra writes with stale data inside a write cycle, which only a proof over all states shows to be harmless.", "anchors": ["mpp-cpu/src/lib/components/mem.c:run_mem", "mpp-cpu/src/lib/components/mxdir.c:run_mxdir", "mpp-cpu/src/lib/components/hl.c:run_hl", "mpp-cpu/src/lib/components/cu/rom.c:ROM"]}
{"id": "C07", "title": "BEQ, BC and JMP transfer control exactly as documented", "statement": "JMP always, BEQ exactly when FZ is 1 and BC exactly when FC is 1 continue at the operand address; otherwise execution continues at the instruction after the branch. No visible register other than PC, no flag and no cell changes.", "quantifier": "every target address, every flag combination, every reachable machine state", "why_tests_cant": "The sequencer's truth table has overlapping rows; first-match order matters and must be right for all flag/opcode combinations in context.", "anchors": ["mpp-cpu/src/lib/components/cu/seq.c:run_cu_seq", "mpp-cpu/src/lib/components/cu/seq.c:truth_table", "mpp-cpu/src/lib/components/cu/seq_fgs_jnr.c:run_cu_seq_b_jnr", "mpp-cpu/src/lib/components/pc.c:run_pc"]}
{"id": "C08", "title": "INISP, PUSH and POP implement a descending stack", "statement": "INISP sets SP to the operand; PUSH decrements SP then stores AC at the new SP and changes no other cell; POP loads AC from the cell at SP then increments SP; flags and B..E are untouched.", "quantifier": "every SP (at the ends of memory SP stays, see C17), every AC, every memory content, every reachable machine state", "why_tests_cant": "All stack positions and contents; INISP shares its sequencer row pattern with BC and is decided by row order only.", "anchors": ["mpp-cpu/src/lib/components/sp.c:run_sp", "mpp-cpu/src/lib/components/addsub.c:run_addsub", "mpp-cpu/src/lib/components/cu/seq.c:truth_table"]}
{"id": "C09", "title": "CALL pushes the return address and RET comes back to it", "statement": "CALL d stores the high then the low byte of the address of the following instruction at SP-1 and SP-2, sets SP to SP-2 and PC to d; RET reloads PC from the two cells at SP and sets SP to SP+2; executing RET when the stack is as CALL left it resumes right after the CALL with SP restored.", "quantifier": "every call site, target, SP and memory content; for the return, SP with room for two stack bytes", "why_tests_cant": "Ranges over all addresses and over everything the callee may do in between.", "anchors": ["mpp-cpu/src/lib/components/pc.c:run_pc", "mpp-cpu/src/lib/components/sp.c:run_sp", "mpp-cpu/src/lib/components/cu/rom.c:ROM", "docs/src/pages/es/instructions/CALL.mdx"]}
{"id": "C10", "title": "IRET restores PC and flags from three stack bytes", "statement": "IRET loads PC from the two cells at SP, then FC and FZ from bits 7 and 0 of the third cell, and leaves SP three higher.", "quantifier": "every SP, memory content and prior flag value (at the end of memory SP stays, see C17)", "why_tests_cant": "All memory contents and contexts; this opcode is reachable by any program that contains byte 0xC0.", "anchors": ["mpp-cpu/src/lib/components/cu/seq.c:truth_table", "mpp-cpu/src/lib/components/cu/rom.c:ROM", "mpp-cpu/src/lib/components/mxfld7.c:run_mxfld7"]}
{"id": "C11", "title": "Every instruction finishes", "statement": "From any instruction boundary, repeatedly calling run_clock_cycle until get_next_state is 0 terminates after at most nine calls, whatever byte is fetched, including every undefined opcode.", "quantifier": "all 256 opcodes, all flag values, all reachable machine states", "why_tests_cant": "A hang is an infinite behaviour; the interrupt rows of the truth table do contain a loop, so only a proof over the reachable states excludes it.", "anchors": ["mpp-cpu/src/lib/components/cu/seq.c:run_cu_seq", "mpp-cpu/src/lib/components/cu/seq.c:truth_table", "mpp-front/src/pages/CPUTable/components/RunButtons.tsx:handleRunInstruction"]}
{"id": "C12", "title": "Undefined opcodes are inert or documented aliases", "statement": "Fetching a byte that is not in the operation table either behaves exactly like one of the documented instructions or changes nothing but PC, the instruction register and the scratch register 2OP.", "quantifier": "all 168 undefined opcodes (256 less the 88 of the operation table), all reachable machine states", "why_tests_cant": "Quantifies over all states; testers check documented opcodes only.", "anchors": ["mpp-cpu/src/lib/components/cu/seq.c:truth_table", "mpp-front/src/lib/traslator/operations.json"]}
{"id": "C13", "title": "The control store is never read out of bounds", "statement": "In every execution the microstate shown by get_state and get_next_state is one of the 45 rows of the control store, and the states of the unimplemented interrupt path never occur.", "quantifier": "every history of API calls of any length", "why_tests_cant": "The bounds check in the code is off by one, so safety rests on an invariant over all executions rather than on the check.", "anchors": ["mpp-cpu/src/lib/components/cu/rom.c:run_cu_rom", "mpp-cpu/src/lib/components/cu/seq.c:run_cu_seq", "mpp-cpu/src/linker/cu.c:get_state"]}
{"id": "C14", "title": "All registers and cells stay within their widths", "statement": "After any history of API calls with in-range arguments, AC, B, C, D, E, H, L, 2OP, PCH, PCL and RI read as 0..255, PC and SP as 0..65535, FC and FZ as 0 or 1, every memory cell as 0..255 and the data bus as 0..255.", "quantifier": "every initial memory, every finite sequence of API calls with in-range arguments", "why_tests_cant": "An invariant over unbounded executions; H, L and 2OP have no width check in the code, so it holds only because every bus driver is bounded.", "anchors": ["mpp-cpu/src/linker/registers.c", "mpp-cpu/src/linker/mem.c", "mpp-cpu/src/lib/components/hl.c:run_hl", "mpp-cpu/src/lib/components/op2.c:run_op2"]}
{"id": "C15", "title": "No undefined behaviour in any in-range history", "statement": "No sequence of init, set_memory_value, set_register_pc, run_clock_cycle, reset_control, getters and shutdown that respects the lifecycle (init first and again at any time, nothing between shutdown and the next init, in-range arguments, UI callback installed) dereferences NULL or freed memory, indexes out of bounds or overflows a signed shift.", "quantifier": "every finite history of API calls that respects the stated preconditions", "why_tests_cant": "Histories are unbounded and the failure modes are memory errors that tests may not even notice.", "anchors": ["mpp-cpu/src/linker/linker.c:init", "mpp-cpu/src/linker/linker.c:shutdown", "mpp-cpu/src/lib/definitions.c:word_to_int", "mpp-cpu/src/lib/pubsub.c:publish_message_to"]}
{"id": "C16", "title": "Stack discipline holds at any depth", "statement": "For any sequence of pushes followed by the same number of pops (with nothing else writing the stack area) the popped values are the pushed ones in reverse order and SP returns to where it was.", "quantifier": "every list of bytes of any length that fits, every starting SP and machine state", "why_tests_cant": "Needs induction on the length of the sequence.", "anchors": ["mpp-cpu/src/lib/components/sp.c:run_sp", "mpp-cpu/src/lib/components/mem.c:run_mem"]}
{"id": "C17", "title": "PC and SP do not wrap: they stick at the ends of memory", "statement": "A fetch at address 0xFFFF leaves PC at 0xFFFF (the same byte is fetched again), PUSH with SP=0 leaves SP at 0 and overwrites cell 0, POP with SP=0xFFFF leaves SP at 0xFFFF, and each such event is reported as an overflow error.", "quantifier": "every machine state with PC or SP at the boundary value", "why_tests_cant": "Boundary behaviour in combination with all other state; the 16-bit wrap a user may expect never happens.", "anchors": ["mpp-cpu/src/lib/components/pc.c:run_pc", "mpp-cpu/src/lib/components/sp.c:run_sp", "mpp-cpu/src/lib/components/addsub.c:run_addsub"]}
{"id": "C18", "title": "Run-program stops exactly at FIN", "statement": "The run-program loop executes the instructions before the first fetched FIN (0xFF) one after the other as the instruction set says, stops exactly one cycle after FIN is fetched, leaves the machine at an instruction boundary with PC just past FIN, and never stops if no FIN is ever fetched.", "quantifier": "every program, every number of instructions executed before FIN, every initial state at an instruction boundary", "why_tests_cant": "Programs and run lengths are unbounded; non-termination cannot be tested.", "anchors": ["mpp-front/src/pages/CPUTable/components/RunButtons.tsx:handleRunProgram", "mpp-cpu/src/lib/components/cu/cu.c:run_cu_clock_cycle"]}
{"id": "C19", "title": "reset_control followed by set_register_pc restarts at the given address", "statement": "After reset_control the next clock cycle is a fetch, whatever microstate was in progress; with set_register_pc(n) it fetches the byte at n. Registers other than PC and all memory cells keep their values.", "quantifier": "every reachable machine state in the middle of any instruction, every n", "why_tests_cant": "Must hold at every interruption point of every instruction.", "anchors": ["mpp-cpu/src/linker/cu.c:reset_control", "mpp-cpu/src/linker/registers.c:set_register_pc", "mpp-cpu/src/lib/components/cu/dxflipflop.c:run_cu_dxflipflop"]}
{"id": "C20", "title": "Memory changes only where a store instruction says, at every clock cycle", "statement": "Across every single clock cycle at most one memory cell changes; it changes only in the write microstates of STA, STAX, PUSH and CALL, only at HL resp. SP, and then holds the value the instruction stores.", "quantifier": "every reachable machine state and every clock cycle, also in the middle of instructions", "why_tests_cant": "A frame condition over 65536 cells in all states; intermediate stale writes happen in the code.", "anchors": ["mpp-cpu/src/lib/components/mem.c:run_mem", "mpp-cpu/src/lib/components/cu/cu.c:run_asyncronus_components"]}
{"id": "C21", "title": "Publishing delivers to exactly the active subscribers of the topic", "statement": "publish_message_to(t, w) returns -1 and delivers nothing if a middleware of t rejects w; otherwise every bus whose active subscription is for t holds w afterwards, every other bus is unchanged, and the return value is the number of such subscriptions.", "quantifier": "every subscription list, middleware list, topic and value", "why_tests_cant": "Ranges over arbitrary subscription histories.", "anchors": ["mpp-cpu/src/lib/pubsub.c:publish_message_to", "mpp-cpu/src/lib/pubsub.c:subscribe_to", "mpp-cpu/src/lib/pubsub.c:add_topic_middleware"]}
{"id": "C22", "title": "Unsubscribing stops delivery to that subscription only", "statement": "After unsubscribe_for(s) succeeds no later publish reaches the bus of s through s, all other subscriptions keep receiving in the same order; a second unsubscribe_for(s) returns false and changes nothing; subscription ids are never reused.", "quantifier": "every history of subscribe, unsubscribe and publish", "why_tests_cant": "Unbounded histories.", "anchors": ["mpp-cpu/src/lib/pubsub.c:unsubscribe_for", "mpp-cpu/src/lib/linkedlist.c:delete_node_from_value"]}
{"id": "C23", "title": "All components agree on every bus", "statement": "At any moment between API calls, every component subscribed to a bus topic sees the same value, namely the last one published on it since init (zero if none).", "quantifier": "every history of API calls after init, every pair of subscribers", "why_tests_cant": "A coherence invariant over unbounded histories and about 70 separately allocated bus copies.", "anchors": ["mpp-cpu/src/lib/pubsub.c:publish_message_to", "mpp-cpu/src/lib/components/components.c:init_components", "mpp-cpu/src/linker/linker.c:init"]}
{"id": "C24", "title": "Word and int conversions are inverse on the values used", "statement": "word_to_int(int_to_word(n)) = n without undefined behaviour for every n from 0 to 2^31-1; int_to_word produces only 0/1 bits; get_used_bits(int_to_word(n)) is the number of significant bits of n; word_to_int of a word with bit 31 set overflows a signed shift.", "quantifier": "all 2^32 int values and all words", "why_tests_cant": "2^32 values; the overflow case is undefined behaviour that a test cannot observe reliably.", "anchors": ["mpp-cpu/src/lib/definitions.c:word_to_int", "mpp-cpu/src/lib/definitions.c:int_to_word", "mpp-cpu/src/lib/definitions.c:get_used_bits", "mpp-cpu/src/lib/utils.c:get_bit"]}
{"id": "C25", "title": "Linked list operations are append and remove-first", "statement": "push_ll_node appends at the end and keeps the rest; delete_node_from_value removes exactly the first node with that value, returns 0 and changes nothing when there is none.", "quantifier": "lists of every length and every value", "why_tests_cant": "Unbounded list length.", "anchors": ["mpp-cpu/src/lib/linkedlist.c:push_ll_node", "mpp-cpu/src/lib/linkedlist.c:get_node_from_value", "mpp-cpu/src/lib/linkedlist.c:delete_node_from_value"]}
{"id": "C26", "title": "Register getters read the register they name", "statement": "After init, and for every later history until shutdown, get_register(t) is the register of type t, so each get_register_x returns the value of register x; it is NULL exactly when every init has been undone by a shutdown.", "quantifier": "every lifecycle history", "why_tests_cant": "Unbounded histories of registering and unregistering watchers.", "anchors": ["mpp-cpu/src/lib/watcher.c:get_register", "mpp-cpu/src/lib/watcher.c:unregister_watcher", "mpp-cpu/src/linker/registers.c"]}
{"id": "C27", "title": "One clock cycle executes exactly one microstate", "statement": "run_clock_cycle always returns, leaves the clock high, and executes exactly one microstate: the one get_next_state showed before the call.", "quantifier": "every reachable machine state, every number of previous calls", "why_tests_cant": "The loop in the code is `while (1)`; termination and the one-state-per-call contract must hold on every call, including the first.", "anchors": ["mpp-cpu/src/lib/components/cu/cu.c:run_cu_clock_cycle", "mpp-cpu/src/lib/clock.c:get_clock_tick", "mpp-cpu/src/lib/components/cu/dxflipflop.c:run_cu_dxflipflop"]}
{"id": "C28", "title": "Re-initialisation gives a fresh machine", "statement": "After a new init, of a machine that was shut down or is still running, the machine behaves from then on exactly as after the first init with the same memory contents, however often this is repeated and whatever was run before.", "quantifier": "every number of init/run/shutdown rounds", "why_tests_cant": "Histories of unbounded length; clock phase and a leaked subscription survive shutdown.", "anchors": ["mpp-cpu/src/linker/linker.c:init", "mpp-cpu/src/linker/linker.c:shutdown", "mpp-cpu/src/lib/clock.c:last_clock_tick", "mpp-cpu/src/lib/components/mxreg.c:shutdown_mxreg"]}
{"id": "C29", "title": "Host memory access behaves like an array", "statement": "get_memory_value(i) after set_memory_value(i, v) is v, other cells are unaffected, registers are unaffected, and get_memory_value is -1 exactly outside 0..65535.", "quantifier": "every address, value and reachable machine state", "why_tests_cant": "2^16 addresses times all states.", "anchors": ["mpp-cpu/src/linker/mem.c:set_memory_value", "mpp-cpu/src/linker/mem.c:get_memory_value", "mpp-cpu/src/lib/components/mem.c:get_value_by_offset"]}
{"id": "C30", "title": "Visible machine state determines the future", "statement": "If two machines, each reached by a legal history, show the same registers, flags, cells and next microstate, then every later sequence of legal calls that shows registers, flags, memory or the next microstate returns the same values on both and reports the same new errors. If the raw bus getters (microstate, data bus, address bus, control bits) agree too, this holds for all later calls.", "quantifier": "every pair of reachable machine states, every common continuation", "why_tests_cant": "A relational property over pairs of unbounded executions.", "anchors": ["mpp-cpu/src/lib/components/cu/cu.c:run_cu", "mpp-cpu/src/lib/components/mem.c:run_mem", "mpp-cpu/src/lib/components/acumm.c:run_acumm"]}
{"id": "C31", "title": "PCH and PCL always mirror PC", "statement": "After every clock cycle that follows a fetch not at 0xFFFF, get_register_pch*256 + get_register_pcl = get_register_pc; the pair differs from PC only between a set_register_pc and the next fetch.", "quantifier": "every reachable machine state", "why_tests_cant": "An invariant over unbounded executions with three separately stored registers.", "anchors": ["mpp-cpu/src/lib/components/pc.c:run_pc", "mpp-cpu/src/linker/registers.c:set_register_pc"]}
{"id": "C32", "title": "Only the documented instructions change the flags", "statement": "FC and FZ change only in ADD, SUB, CMP, AND, OR, XOR, INC, CMA, SFA and IRET; every other instruction leaves them as they were, and so does every undefined opcode that does not act as one of these (C12).", "quantifier": "all 256 opcodes, all reachable states", "why_tests_cant": "Frame condition over all opcodes and states.", "anchors": ["mpp-cpu/src/lib/components/flags.c:run_flags", "mpp-cpu/src/lib/components/cu/rom.c:ROM"]}
{"id": "C33", "title": "The microprogram matches the documentation", "statement": "For each documented instruction the sequence of microstates visited is the one the documentation lists (clones S39..S44 standing for the state they duplicate), for all flag values and machine states.", "quantifier": "every documented opcode, every flag value", "why_tests_cant": "The sequencer is a 100-row first-match table with overlapping rows.", "anchors": ["mpp-cpu/src/lib/components/cu/seq.c:truth_table", "docs/src/pages/es/instructions/", "mpp-front/src/pages/CPUTable/components/StateTransition/constants.json"]}
{"id": "C34", "title": "Initial memory is valid", "statement": "Whatever rand() returns and whatever was run before, every cell is initialised with a value in 0..254, so a fresh machine satisfies all width invariants.", "quantifier": "every sequence of non-negative rand() results", "why_tests_cant": "All random sequences.", "anchors": ["mpp-cpu/src/lib/components/mem.c:fill_memory", "mpp-cpu/src/lib/utils.c:random_int"]}
{"id": "C35", "title": "The ALU truncation and carry are exact", "statement": "For all 8-bit inputs and all eight ALU selections the published result, FC and FZ are the mathematical 8-bit result, carry/borrow (SUM and SUB only) and zero test.", "quantifier": "all 2^16 input pairs and all eight selections", "why_tests_cant": "Stated for all inputs of the component in isolation from the machine, with the 32-bit intermediate and truncation loop of the code.", "anchors": ["mpp-cpu/src/lib/components/alu.c:run_alu"]}
{"id": "C36", "title": "Assembled instructions have the size the label arithmetic assumes", "statement": "Every source line that the assembler accepts yields either exactly ALLOC pieces, each a two-digit hexadecimal number and the first the opcode, or the opcode and a label still to be replaced. In the code emitted for an accepted program that fits in memory and uses labels only as addresses, each statement occupies exactly the number of bytes that the CPU takes for the instruction, and the first is decoded as the instruction. (A label used as an 8-bit immediate emits three bytes although two are counted.)", "quantifier": "every source line and every source program", "why_tests_cant": "The set of source lines is infinite.", "anchors": ["mpp-front/src/lib/traslator/index.ts:executeRegex", "mpp-front/src/lib/traslator/index.ts:translate", "mpp-front/src/lib/traslator/operations.json"]}
{"id": "C37", "title": "Labels resolve to the address of the labelled instruction", "statement": "The assembler accepts exactly the texts of the language in which every operand is in range and every label operand is defined. In an accepted program that fits in memory and uses labels only as 16-bit addresses, the emitted bytes are the machine code of the program, in which every label operand is the two bytes of the offset at which the bytes of the first statement carrying that label start.", "quantifier": "every source program", "why_tests_cant": "Programs of unbounded length with forward and backward references.", "anchors": ["mpp-front/src/lib/traslator/index.ts:post", "mpp-front/src/lib/traslator/index.ts:calculateEtiquetasPos", "mpp-front/src/lib/traslator/index.ts:parseInput"]}
{"id": "C38", "title": "Opcodes in the operation table are unambiguous", "statement": "No two operations share an opcode, every mnemonic is matched by its own pattern and by no earlier one for every operand (the only numeral taken for something else is the byte AC), the assembler's opcode is decoded by the CPU as that mnemonic with ALLOC as its size, and every documented opcode is in the table.", "quantifier": "all operations of the table, all operands", "why_tests_cant": "Ranges over all operands; earlier table rows could shadow later ones for some operand text (e.g. an immediate named like a register).", "anchors": ["mpp-front/src/lib/traslator/operations.json", "mpp-front/src/lib/traslator/index.ts:executeRegex", "mpp-front/src/lib/debugger/index.ts:findOperation"]}
{"id": "C39", "title": "Comments and surrounding blanks do not change the code", "statement": "Appending a comment to a line, adding blank or comment-only lines, or indenting a line does not change the emitted bytes.", "quantifier": "every source program and comment text", "why_tests_cant": "Infinite set of programs and comments.", "anchors": ["mpp-front/src/lib/traslator/index.ts:checkCommentLine", "mpp-front/src/lib/traslator/index.ts:parseInput"]}
{"id": "C40", "title": "The disassembler recovers the assembled instructions", "statement": "Starting at the first byte of assembled code, the disassembler reports for each instruction its mnemonic with the hexadecimal digits of its operand bytes and a range equal to the bytes it was assembled to, consecutive instructions giving consecutive ranges.", "quantifier": "every sequence of assembled instructions at every offset", "why_tests_cant": "Sequences of unbounded length at every offset of every memory content.", "anchors": ["mpp-front/src/lib/debugger/index.ts:deductOperationOf", "mpp-front/src/lib/debugger/index.ts:findOperation", "mpp-front/src/lib/debugger/index.ts:replaceDir"]}
{"id": "C41", "title": "Saving a program to memory places it and nothing else", "statement": "Whatever was done in the code drawer before, when saving is enabled, saving writes exactly the emitted bytes at consecutive addresses from the offset on, inside memory, leaves all other cells and all registers alone, never calls the core out of range, and makes the next cycle a fetch; the bytes are the machine code of the program in the editor.", "quantifier": "every program that fits and every offset", "why_tests_cant": "All programs, offsets and prior memory contents.", "anchors": ["mpp-front/src/pages/Coder/index.tsx:handleSaveToMemory", "mpp-cpu/src/linker/mem.c:set_memory_value", "mpp-cpu/src/linker/cu.c:reset_control"]}
{"id": "C42", "title": "The shipped multiplication example multiplies", "statement": "The example program MULTIPLICATION, with any two hexadecimal numerals of bytes in place of 05 and 03 (other than the text AC, which names the register), chosen in the drawer, saved at 0 and run, stops at FIN with AC = B*C modulo 256, having changed no cell but those of the program and of its stack.", "quantifier": "all 65536 pairs of factors (also 0) in every spelling, every initial memory and register content, wherever the machine had stopped, whatever was typed before", "why_tests_cant": "All pairs and all initial states; the run length depends on C and C=0 runs the loop 256 times.", "anchors": ["mpp-front/src/pages/Coder/constants/examples.json", "mpp-cpu/src/lib/components/cu/cu.c:run_cu"]}
{"id": "C43", "title": "The shipped counting example stops with AC=5", "statement": "The example SUM ACC UNTIL AC=5, chosen in the drawer, saved at 0 and run, stops at FIN with AC = 5 and FZ = 1 from every initial state.", "quantifier": "every initial memory and register content", "why_tests_cant": "All initial states.", "anchors": ["mpp-front/src/pages/Coder/constants/examples.json"]}
{"id": "C44", "title": "Cells and PC outside their range are contained", "statement": "If the host stores values outside 0..255 in cells, a fetch of such a cell leaves every register (the instruction register in particular) and every cell unchanged, reports exactly one error, the overflow, and goes on to microstate 1. After any calls at all, AC, B..E, RI, PCH and PCL never show a value outside 0..255, nor SP one outside 0..65535.", "quantifier": "every int value stored by the host, every reachable machine state", "why_tests_cant": "All 2^32 values; the code's width checks are in some components and absent in others (H, L, 2OP).", "anchors": ["mpp-cpu/src/linker/mem.c:set_memory_value", "mpp-cpu/src/lib/components/cu/cu.c:run_cu", "mpp-cpu/src/lib/components/greg.c:run_greg", "mpp-cpu/src/lib/components/op2.c:run_op2"]}
{"id": "C45", "title": "Multiplexers select the addressed input", "statement": "run_4x1_mx and run_2x1_mx return the input with the index sel and -1 for any other sel; the direction multiplexer puts PC, SP, HL or 0xFFFC on the address bus according to the two select bits.", "quantifier": "every selector value and all inputs", "why_tests_cant": "2^32 selector values and all inputs.", "anchors": ["mpp-cpu/src/lib/electronic/multiplexer.c", "mpp-cpu/src/lib/components/mxdir.c:run_mxdir"]}
{"id": "C46", "title": "The assembler ends on every text", "statement": "The assembler ends with a translation or with errors on every text, although its loops rewrite the list over which they run.", "quantifier": "every text, also with odd line terminators and labels that are replaced by codes", "why_tests_cant": "Infinite set of texts; the loops splice the list they iterate over.", "anchors": ["mpp-front/src/lib/traslator/index.ts:post", "mpp-front/src/lib/traslator/index.ts:parseInput"]}
{"id": "C47", "title": "The debugger window tiles memory around PC", "statement": "Whatever is in memory, the debugger shows rows that follow one another without gaps from max(PC - padding, 0) on and reach at least min(PC + padding, 65536); exactly one row contains PC and it is the highlighted one. (It need not begin at PC.)", "quantifier": "every memory content, every PC and every padding", "why_tests_cant": "All memory contents and window sizes.", "anchors": ["mpp-front/src/lib/debugger/index.ts:deductOperationOf", "mpp-front/src/pages/CPUTable/components/DebuggerNode/index.tsx"]}
{"id": "C48", "title": "The shipped search example finds the first 05", "statement": "The example SEARCH IN BUFFER FOR '05', chosen in the drawer, saved at 0 and run, stops at FIN with AC = 5 and D:E on the first cell from 0x00FE on that holds 5 once it has stored one at 0x0102.", "quantifier": "every initial memory and register content", "why_tests_cant": "All initial states; the path depends on the contents of the buffer and crosses a page.", "anchors": ["mpp-front/src/pages/Coder/constants/examples.json", "mpp-cpu/src/lib/components/cu/cu.c:run_cu"]}
{"id": "C49", "title": "The shipped call example adds in a function", "statement": "The example CALL FUNCTION, with any two numerals in place of the two 02, chosen in the drawer, saved at 0 and run, writes a function at 0xFFFA, calls it and stops at FIN with D = AC = B + C modulo 256, the flags of the addition and the stack pointer back at its start.", "quantifier": "all 65536 pairs of numbers, every initial memory and register content", "why_tests_cant": "All pairs and initial states; the program writes the code it runs.", "anchors": ["mpp-front/src/pages/Coder/constants/examples.json", "mpp-cpu/src/lib/components/cu/cu.c:run_cu"]}
{"id": "C50", "title": "A listing assembles back to the listed bytes", "statement": "The operations that the debugger lists for the code of a program, given to the assembler, are translated to the bytes that were listed.", "quantifier": "every program at every offset", "why_tests_cant": "Sequences of unbounded length; the hex digits are not zero-padded, so the operand text is ambiguous for some addresses.", "anchors": ["mpp-front/src/lib/debugger/index.ts:deductOperationOf", "mpp-front/src/lib/debugger/index.ts:replaceDir", "mpp-front/src/lib/debugger/index.ts:replaceInm"]}
{"id": "C51", "title": "Stopping and resuming a run changes nothing", "statement": "Run-instruction and run-program, stopped after any clock cycle and pressed again, end exactly where they would have ended without the stop; run-instruction ends from every reachable state; any mixture of presses of the three run buttons that is back between two instructions has run whole instructions.", "quantifier": "all reachable states, every number of cycles before the stop, every sequence of presses", "why_tests_cant": "Stops at every cycle of every program of every length.", "anchors": ["mpp-front/src/pages/CPUTable/components/RunButtons.tsx:handleRunState", "mpp-front/src/pages/CPUTable/components/RunButtons.tsx:handleRunInstruction", "mpp-front/src/pages/CPUTable/components/RunButtons.tsx:handleRunProgram", "mpp-front/src/pages/CPUTable/components/RunButtons.tsx:handleStopRunning"]}
{"id": "C52", "title": "The diagram tells what a clock cycle did", "statement": "After every clock cycle each control line of the diagram is 1 exactly in the microstates that load or release what it is named after. A box whose line is 0 did not change; a box whose line is 1 shows the value on the bus that feeds it; a released register or memory cell is what the data bus shows; memory is written only when LE is 0, at the shown address with the shown data; the named ALU operation is the one whose result was loaded. In every language exactly one box bears the name of a register, and the number in it is the value of that register; the line at a box bears the name of the signal it shows.", "quantifier": "every clock cycle of every reachable machine, every box of the diagram", "why_tests_cant": "All reachable states and all microstates; the buses are evaluated again after the registers were loaded, so what is shown may be different from what was loaded.", "anchors": ["mpp-cpu/src/linker/bus.c:get_control_bus_accar", "mpp-cpu/src/linker/bus.c:get_data_bus", "mpp-cpu/src/linker/mem.c:get_memory_dir_bus", "mpp-cpu/src/lib/components/cu/rom.c:run_cu_rom", "mpp-cpu/src/lib/components/cu/cu.c:run_cu", "mpp-front/src/pages/CPUTable/constants/nodes.tsx:nodes", "mpp-front/src/pages/CPUTable/components/ALUNode.tsx:SelAluOp", "mpp-front/src/lib/core/index.ts:exportedMethods"]}
{"id": "C53", "title": "The panel of microstates tells the truth", "statement": "In every clock cycle the text of the executed microstate says which registers and memory cells changed and how. The panel never has more than three rows and always can be drawn; its last row is the microstate of the next clock cycle; the rows marked executed are the microstates executed last, in order; every row carries the number of its microstate.", "quantifier": "every clock cycle of every reachable machine; every session of API calls, notifications and clearings", "why_tests_cant": "All microstates with all operands, all reachable machines and sessions of any length.", "anchors": ["mpp-front/src/pages/CPUTable/components/StateTransition/index.tsx:onUIUpdate", "mpp-front/src/pages/CPUTable/components/StateTransition/constants.json", "mpp-cpu/src/linker/cu.c:get_next_state", "mpp-front/src/lib/core/index.ts:notifyUpdateToSubscribers", "mpp-front/src/hook/usePrev.ts:usePrev"]}
{"id": "C54", "title": "The number boxes show the number that is used", "statement": "In any sequence of typing, selecting a base and changes from outside, a number box that is not marked as an error shows the one usual numeral (capital letters, no zeros in front) of the number in use, in the selected base. Typing a numeral makes its value (or the maximum) the number in use; any other text is kept, marked and changes nothing; selecting a base changes only the writing; a box with a maximum never exceeds it.", "quantifier": "every sequence of events, every text, every base and every number below 2^53", "why_tests_cant": "Unbounded texts and sequences; three pieces of state (text, mark, number) change at different moments.", "anchors": ["mpp-front/src/components/NumberBaseInput.tsx:NumberBaseInput", "mpp-front/src/components/NumberBaseInput.tsx:getFormatted", "mpp-front/src/components/NumberBaseInput.tsx:validateNumberBase", "mpp-front/src/components/NumberBaseInput.tsx:handleBaseChange", "mpp-front/src/components/NumberBaseInput.tsx:onValueChange", "mpp-front/src/constants/bases.ts:bases"]}
{"id": "C55", "title": "The memory box shows the addressed cell and its neighbours", "statement": "After every UI update the memory box shows exactly the existing cells among the one the address bus points to and its two neighbours, with their present contents, highlights the addressed one and says reading or writing as LE is. Searching for an offset shows that cell. Without fast clock cycles the rows are never out of date. When it says writing, exactly the highlighted cell was written.", "quantifier": "every sequence of core calls, notifications, searches, base and setting changes", "why_tests_cant": "All reachable machines and all interleavings of user actions with UI updates.", "anchors": ["mpp-front/src/pages/CPUTable/components/MemoryNode.tsx:MemoryComponent", "mpp-front/src/pages/CPUTable/components/MemoryNode.tsx:MemoryComponentRow", "mpp-front/src/pages/CPUTable/components/MemoryNode.tsx:onUIUpdate", "mpp-front/src/pages/CPUTable/components/MemoryNode.tsx:onSearch", "mpp-front/src/pages/CPUTable/components/MemoryNode.tsx:onBaseChange", "mpp-cpu/src/linker/mem.c:get_memory_value", "mpp-cpu/src/linker/mem.c:get_memory_dir_bus", "mpp-front/src/components/NumberBaseInput.tsx:getRadix"]}
{"id": "C56", "title": "The editor marks the wrong lines, the labels and the bytes of each line", "statement": "For every text, the editor marks an error on exactly the lines that hold something but not a statement with an operand in range or a declared label; marks a label on exactly the lines with a right statement that carries it, with the address of its first byte; and annotates each statement of a right program with its machine code in its own row. Each mark covers the marked text.", "quantifier": "every text (no line terminators but the newline inside statements), every start address", "why_tests_cant": "Unbounded texts; an error on one line changes which labels of other lines are known and where they lie.", "anchors": ["mpp-front/src/lib/traslator/index.ts:parseInput", "mpp-front/src/lib/traslator/index.ts:pre", "mpp-front/src/lib/traslator/index.ts:calculateEtiquetasPos", "mpp-front/src/lib/traslator/index.ts:executeRegex", "mpp-front/src/pages/Coder/components/CodeEditor.tsx:CodeEditor"]}
{"id": "C57", "title": "Code in the address of the page ends with FIN and is kept", "statement": "Opening the page with code in its address shows this code in the editor; if a FIN is missing one is added in a line of its own, the note says so, and the machine code is that of the given program followed by FF. What is in the editor comes back on the next visit.", "quantifier": "every code in the address, every content of the storage, every sequence of edits, setting changes and reloads", "why_tests_cant": "Unbounded texts and sequences of visits.", "anchors": ["mpp-front/src/pages/Coder/components/CodeEditor.tsx:CodeEditor", "mpp-front/src/pages/Coder/index.tsx:Coder", "mpp-front/src/lib/storage.ts:getStoredValue", "mpp-front/src/lib/storage.ts:setStoredValue"]}
{"id": "C58", "title": "The cycle time in the settings is the one in use", "statement": "In every sequence of visits and changes the run buttons run without updates exactly when the cycle time they read is zero, this time is between 0 and 5000, the settings box shows it, and it is kept between visits. The tour opens by itself on the first visit only.", "quantifier": "every sequence of setting changes, edits, runs and reloads, every storage with an acceptable cycle time or none", "why_tests_cant": "Three copies of the setting (storage, box, run buttons) change at different moments; unbounded sequences.", "anchors": ["mpp-front/src/pages/CPUTable/components/Settings.tsx:Settings", "mpp-front/src/pages/CPUTable/components/Settings.tsx:handleCycleTimeChange", "mpp-front/src/pages/CPUTable/components/Settings.tsx:handleOnboardingChange", "mpp-front/src/pages/CPUTable/components/Settings.tsx:notifyChange", "mpp-front/src/pages/CPUTable/components/RunButtons.tsx:RunButtons", "mpp-front/src/lib/storage.ts:getStoredValue", "mpp-front/src/lib/storage.ts:setStoredValue", "mpp-front/src/pages/CPUTable/index.tsx:CPUTable"]}
{"id": "C59", "title": "The page stays in order while programs run", "statement": "In every sequence of clicks, pauses, answers, setting changes and uses of the code drawer: at most one function runs or waits, and the run buttons are enabled exactly when none does; nothing undefined happens to the core and nothing gets stuck; what the core goes through is a sequence of presses of the run buttons, each over by itself or stopped; whenever no run without updates is under way the page has been told of the last change of the core; setting PC sets it to the offset shown; the stop button is enabled while something runs, and after it no clock cycle is run until a run button is pressed again.", "quantifier": "every sequence of events on the page, from every core in use and every content of the storage", "why_tests_cant": "Interleavings of suspended functions with clicks, of any length; timing decides which happens first.", "anchors": ["mpp-front/src/pages/CPUTable/components/RunButtons.tsx:RunButtons", "mpp-front/src/pages/CPUTable/components/RunButtons.tsx:handleRunState", "mpp-front/src/pages/CPUTable/components/RunButtons.tsx:handleRunInstruction", "mpp-front/src/pages/CPUTable/components/RunButtons.tsx:handleRunProgram", "mpp-front/src/pages/CPUTable/components/RunButtons.tsx:handleStopRunning", "mpp-front/src/lib/utils.ts:sleep", "mpp-front/src/pages/Coder/index.tsx:handleSaveToMemory", "mpp-front/src/pages/Coder/components/CodeEditor.tsx:handlePCChange", "mpp-front/src/lib/core/index.ts"]}
{"id": "C60", "title": "Every text exists in every language and is shown in the chosen one", "statement": "The three languages have texts for the same keys and none is empty; every text that the page asks for exists; however components come and go and the language is changed, each component shows the text of its key in the language set last; the settings show the language of the texts, a chosen language is kept between visits, and with nothing stored the language is that of the browser and one of those offered; the languages offered are exactly those with texts of their own.", "quantifier": "every key, every language (also one that is not offered), every sequence of components appearing, changing their key, disappearing and of language changes, every sequence of visits and choices", "why_tests_cant": "Unbounded sequences of components and changes; the listeners are kept in a list that is spliced by position.", "anchors": ["mpp-front/src/lib/i18n/index.ts:loc", "mpp-front/src/lib/i18n/index.ts:getLanguageData", "mpp-front/src/lib/i18n/index.ts:setLanguage", "mpp-front/src/lib/i18n/index.ts:onLanguageChange", "mpp-front/src/components/i18n.tsx:I18n", "mpp-front/src/components/i18n.tsx:useI18n", "mpp-front/src/pages/CPUTable/components/Settings.tsx:handleLanguageChange", "mpp-front/src/lib/i18n/en.json", "mpp-front/src/lib/i18n/es.json", "mpp-front/src/lib/i18n/eu.json"]}
{"id": "C61", "title": "The diagram shows the core after every update, highlights what changed and moves the arrows in use", "statement": "After every UI update of every session each box of the diagram shows the present value of its register, bus, state, flags or ALU operation and is highlighted exactly when it shows something new; every arrow with a control line says what the line is and moves exactly when it is 1; arrows that the user selected or removed are back; a box is highlighted only if an arrow to it moves; before the first update the boxes are right, too.", "quantifier": "every reachable core, every sequence of calls within its lifecycle, notifications and changes to the arrows by the user, both ways in which React may order the computation of new state", "why_tests_cant": "Unbounded histories; the subscribers keep the list of arrows of their first drawing and change it in place.", "anchors": ["mpp-front/src/hook/useUpdateEdges.ts:onUIUpdate", "mpp-front/src/pages/CPUTable/components/RegisterNode.tsx:onUIUpdate", "mpp-front/src/pages/CPUTable/components/BusNode.tsx:onUIUpdate", "mpp-front/src/pages/CPUTable/components/FlagsNode.tsx:onUIUpdate", "mpp-front/src/pages/CPUTable/components/ALUNode.tsx:onUIUpdate", "mpp-front/src/pages/CPUTable/constants/edges.tsx:initialEdges", "mpp-front/src/pages/CPUTable/index.tsx:onEdgesChange", "mpp-front/src/lib/core/index.ts:notifyUpdateToSubscribers"]}
{"id": "C62", "title": "The page never uses a core that is not ready", "statement": "For every order in which connectBackend is called, cores become ready or fail and the page is left, every call that the page makes while it is shown as loaded goes to a core that was loaded and initialised, meets the preconditions of the C functions and answers; a core that becomes ready is fresh; what the page stored stays until the page is left.", "quantifier": "every sequence of connects, ready cores (also several at once), failures, disconnects and calls of the page", "why_tests_cant": "The order in which promises and timers complete is not under the control of a test, and the number of connects is unbounded.", "anchors": ["mpp-front/src/lib/core/index.ts:loadCore", "mpp-front/src/lib/core/index.ts:connectBackend", "mpp-front/src/lib/core/index.ts:disconnectBackend", "mpp-front/src/lib/core/index.ts:execute", "mpp-front/src/App.tsx:useEffect", "mpp-cpu/src/linker/linker.c:init"]}
{"id": "C63", "title": "The documented factorial program computes n!", "statement": "The factorial program of the documentation, with any numeral for n, opened from the documentation, saved and run, ends with AC = n! modulo 256, SP = 0xEEEE, only the program and 3n-1 cells of the stack changed, no error.", "quantifier": "every n from 1 to 255 in every hexadecimal spelling; every reachable machine; every contents of the browser's storage", "why_tests_cant": "Needs every value of the operand and every contents of memory and registers before; a test runs a few. The recursion is up to 255 deep.", "anchors": ["docs/src/pages/es/examples/factorial.mdx:Código final", "docs/src/components/Code/Code.tsx:openCode", "mpp-front/src/pages/Coder/components/CodeEditor.tsx:CodeEditor"]}
{"id": "C64", "title": "The documented malicious function loops in constant space", "statement": "The malicious-function program of the documentation never returns to its caller: run-program does not end; SP stays within 0xEEEA..0xEEEE and nothing but these four cells is written, however many instructions run; every 37 instructions the machine is back in the same state. Its helper TFSUB takes 1 from the 16 bits of D:E.", "quantifier": "every reachable machine; every number of instructions; for TFSUB every value of D:E and every stack depth", "why_tests_cant": "Non-termination and the bound on the stack concern infinitely many steps.", "anchors": ["docs/src/pages/es/examples/malicious-function.mdx:Código final", "docs/src/components/Code/Code.tsx:openCode", "mpp-front/src/pages/Coder/components/CodeEditor.tsx:CodeEditor"]}
{"id": "C65", "title": "The documented solutions solve the exercises", "statement": "Each of the 27 solutions given on the pages of the instructions, opened from the documentation, saved and run, brings about what the exercise asks for, writes nothing else and reports no error.", "quantifier": "every solution; every reachable machine", "why_tests_cant": "Needs every value of the operand and every contents of memory and registers before; a test runs a few.", "anchors": ["docs/src/pages/es/instructions/ADD.mdx:Comprueba tus conocimientos", "docs/src/pages/es/instructions/AND.mdx:Comprueba tus conocimientos", "docs/src/pages/es/instructions/BC.mdx:Comprueba tus conocimientos", "docs/src/pages/es/instructions/BEQ.mdx:Comprueba tus conocimientos", "docs/src/pages/es/instructions/CMA.mdx:Comprueba tus conocimientos", "docs/src/pages/es/instructions/CMP.mdx:Comprueba tus conocimientos", "docs/src/pages/es/instructions/INC.mdx:Comprueba tus conocimientos", "docs/src/pages/es/instructions/INISP.mdx:Comprueba tus conocimientos", "docs/src/pages/es/instructions/JMP.mdx:Comprueba tus conocimientos", "docs/src/pages/es/instructions/LDA.mdx:Comprueba tus conocimientos", "docs/src/pages/es/instructions/LDAX.mdx:Comprueba tus conocimientos", "docs/src/pages/es/instructions/LFA.mdx:Comprueba tus conocimientos", "docs/src/pages/es/instructions/MOV.mdx:Comprueba tus conocimientos", "docs/src/pages/es/instructions/OR.mdx:Comprueba tus conocimientos", "docs/src/pages/es/instructions/POP.mdx:Comprueba tus conocimientos", "docs/src/pages/es/instructions/PUSH.mdx:Comprueba tus conocimientos", "docs/src/pages/es/instructions/SFA.mdx:Comprueba tus conocimientos", "docs/src/pages/es/instructions/STA.mdx:Comprueba tus conocimientos", "docs/src/pages/es/instructions/STAX.mdx:Comprueba tus conocimientos", "docs/src/pages/es/instructions/SUB.mdx:Comprueba tus conocimientos", "docs/src/pages/es/instructions/XOR.mdx:Comprueba tus conocimientos", "docs/src/components/Code/Code.tsx:openCode", "mpp-front/src/pages/Coder/components/CodeEditor.tsx:CodeEditor"]}
{"id": "C66", "title": "The documented multiplication from 0 computes the product", "statement": "The multiplication whose result starts at 0 (the solution under 'Mejoras'), with any numerals for the factors, ends with AC = a*b modulo 256 and C = 0; only the program and the cell 0x1233 are changed; no error.", "quantifier": "all pairs of bytes in every hexadecimal spelling, 0 included; every reachable machine", "why_tests_cant": "Needs every value of the operand and every contents of memory and registers before; a test runs a few.", "anchors": ["docs/src/pages/es/examples/multiplication.mdx:Mejoras", "docs/src/components/Code/Code.tsx:openCode", "mpp-front/src/pages/Coder/components/CodeEditor.tsx:CodeEditor"]}
{"id": "C67", "title": "The debugger box lists the instructions around PC", "statement": "While the debugger box is on the screen, after every UI update it lists the instructions around PC as they are in memory at that moment, as far as its number says (at most 50 cells to each side), without gaps, and highlights exactly one row: the one of the instruction at PC. Between updates the list follows the number that is typed. It can always be drawn.", "quantifier": "every reachable machine; every session of core calls, typing and selecting; every PC, number and memory contents; every program", "why_tests_cant": "Needs every memory contents, every PC and every interleaving of updates with typing.", "anchors": ["mpp-front/src/pages/CPUTable/components/DebuggerNode/index.tsx:DebuggerNode", "mpp-front/src/pages/CPUTable/components/DebuggerNode/index.tsx:DebuggerComponent", "mpp-front/src/lib/debugger/index.ts:deductOperationOf"]}
{"id": "C68", "title": "A program of the documentation arrives in the editor unchanged", "statement": "Whatever characters a program has, the address that the documentation opens for it carries it to the editor without change: the code parameter that the page reads from its address is that program. If it is not empty the editor is open from the beginning and starts with it.", "quantifier": "every text (every list of Unicode scalar values); every stored code", "why_tests_cant": "Needs every character in every position: the encoders and decoders of UTF-8 and of URL parameters are inverse to one another only for all texts at once.", "anchors": ["docs/src/components/Code/Code.tsx:openCode", "mpp-front/src/pages/Coder/index.tsx:Coder"]}
{"id": "C69", "title": "A program saved in a file is the same when it is opened again", "statement": "The code that is downloaded as a file and opened again, in whatever session, is the same text.", "quantifier": "every text", "why_tests_cant": "Needs every text, with every character in every position.", "anchors": ["mpp-front/src/lib/utils.ts:useTextFile", "mpp-front/src/pages/Coder/components/CodeEditor.tsx:handleDownloadCode", "mpp-front/src/pages/Coder/components/CodeEditor.tsx:handleOpenCode"]}
{"id": "C70", "title": "The core reports exactly the overflows of PC and SP", "statement": "In every history the only errors that the core ever reports are overflows of PC and of SP. A clock cycle reports one exactly if its microstate counts a register that is at that end of memory; no other call reports anything. Every error is printed on stderr, in its own line and in order, with and without DEBUG, and never ends the program.", "quantifier": "every reachable machine, every microstate, PC and SP; every history of calls", "why_tests_cant": "Needs every microstate with every PC and SP after every history; that an error never happens cannot be tested.", "anchors": ["mpp-cpu/src/lib/error.c:process_error", "mpp-cpu/src/lib/error.c:notice", "mpp-cpu/src/lib/logger.c:log_log", "mpp-cpu/src/lib/components/pc.c:run_pc", "mpp-cpu/src/lib/components/sp.c:run_sp"]}
{"id": "C71", "title": "The logger delivers every message to the callbacks that ask for it", "statement": "After any sequence of calls of the logger, a message of any level is written to stderr unless the logger is quiet or set to a higher level, and delivered once to each of the first 32 registered callbacks whose level it reaches, in the order of registration, between locking and unlocking. Registering more than 32 callbacks fails with -1 and no call leaves the array.", "quantifier": "every sequence of calls, every message and level", "why_tests_cant": "Needs every sequence of registrations, of any length, mixed with changes of level, lock and quietness.", "anchors": ["mpp-cpu/src/lib/logger.c:log_log", "mpp-cpu/src/lib/logger.c:log_add_callback", "mpp-cpu/src/lib/logger.c:lock", "mpp-cpu/src/lib/error.c:fatal"]}
{"id": "C72", "title": "The helpers of utils.c do what their tests expect, for all numbers", "statement": "get_num_digits gives the number of decimal digits, random_int(min, max) a number from min to max, num_to_str the decimal digits of the number, within its buffer, and get_bit the binary digit, for every int.", "quantifier": "every int; every result of rand()", "why_tests_cant": "The unit tests try a few numbers; the claims are about all 2^32.", "anchors": ["mpp-cpu/src/lib/utils.c:get_num_digits", "mpp-cpu/src/lib/utils.c:random_int", "mpp-cpu/src/lib/utils.c:num_to_str", "mpp-cpu/src/lib/utils.c:get_bit"]}
{"id": "C73", "title": "Every arrow of the diagram begins and ends at a point of its boxes", "statement": "After every UI update of every session, each arrow on the screen begins at a handle of its source box that is meant for the beginning of arrows and ends at a handle of its target box that is meant for their end; no other handle can be meant, and no two ends of arrows are at the same place. The arrows labelled A, B, FZ and FC join the inputs and outputs of these names. A register box draws, whatever its id and data, handles with different names, on the sides its data name.", "quantifier": "every session of core calls, updates and user actions; every arrow; every id and data of a register box", "why_tests_cant": "A snapshot shows one state of the diagram; the claim is about all updates of all sessions and about any data of a box.", "anchors": ["mpp-front/src/pages/CPUTable/components/Handles.tsx", "mpp-front/src/pages/CPUTable/components/BusNode.tsx", "mpp-front/src/pages/CPUTable/components/ALUNode.tsx", "mpp-front/src/pages/CPUTable/components/FlagsNode.tsx", "mpp-front/src/pages/CPUTable/constants/edges.tsx", "mpp-front/src/pages/CPUTable/constants/nodes.tsx"]}
{"id": "C74", "title": "The list of changes shows each commit of the version once", "statement": "Whatever is clicked and however GitHub answers, when all requests have been answered the tab of the current version is not loading, and shows each commit of the version exactly once, or an error; an error is shown only until the commits are loaded. The tab of the commits shows the last list that GitHub has sent.", "quantifier": "every version, every sequence of clicks and of answers, in any order, also errors", "why_tests_cant": "The answers come in any order, mixed with clicks in any order; a test tries a few interleavings.", "anchors": ["mpp-front/src/pages/CPUTable/components/Changelog/index.tsx:getReleased", "mpp-front/src/pages/CPUTable/components/Changelog/index.tsx:getCommits", "mpp-front/src/pages/CPUTable/components/Changelog/index.tsx:onTabClick"]}
{"id": "C75", "title": "A program does what its text says", "statement": "A text is typed and saved, or comes in the address of the page, and PC is set to its beginning. Then each instruction that the machine runs has exactly the effect that the documentation gives for the corresponding statement of the text: labels name statements, jumps lead to the statement named, RET comes back to the statement after the CALL whose address is on the stack. If the statements lead to a FIN, run-program ends with the registers and the memory they leave; if they go on for ever, it does not end. This holds as long as the program does not write on itself, jumps lead to statements, and the stack stays in memory; every statement that keeps to this is carried out.", "quantifier": "every text of the language whose label operands are addresses and that leaves the last cell free, every machine a host can have brought about, every number of statements", "why_tests_cant": "Quantifies over all programs and all runs, of any length, also endless ones.", "anchors": ["mpp-front/src/lib/traslator/index.ts", "mpp-front/src/pages/Coder/index.tsx:handleSaveToMemory", "mpp-front/src/pages/Coder/components/CodeEditor.tsx:handlePCChange", "mpp-front/src/pages/CPUTable/components/RunButtons.tsx:handleRunProgram", "mpp-cpu/src/lib/components/cu/cu.c:run_cu_clock_cycle"]}
{"id": "C76", "title": "The code drawer offers to save exactly the programs and lists each byte beside its address", "statement": "Whatever was done on the page, saving is enabled exactly when the text that is in the editor now is translated without errors to at most 65536 bytes, that is, when it is a program with right operands that fits into memory. Under a program the drawer lists one row for each byte of its machine code, in order, numbered without gaps, with the two digits of the byte; after saving, the cell whose address is the number beside a row holds the byte in the row, and all other cells and all registers are as before.", "quantifier": "every sequence of events on the page (the disabled input for the offset left alone), every text, every machine a host can have brought about", "why_tests_cant": "Quantifies over all texts and all histories of the page; what is enabled depends on two effects that overwrite each other's result.", "anchors": ["mpp-front/src/pages/Coder/index.tsx:onNewTranslation", "mpp-front/src/pages/Coder/index.tsx:handleSaveToMemory", "mpp-front/src/pages/Coder/components/CodeEditor.tsx:60-87", "mpp-front/src/pages/Coder/components/TranslatedEditor.tsx"]}
{"id": "C77", "title": "A program typed, saved and run on the page comes to what its text says, and the page shows it", "statement": "On a page where nothing runs, with a program in the editor: saving, setting PC and pressing run-program. If the statements of the program lead to a FIN, the run can always be brought to its end by waiting, and as soon as it is over the registers and the memory are those that the statements lead to, and the page has been told of them, no matter what was done on the page before, how long the pauses were, and what was set or typed during the run. If the statements go on for ever, the run is never over.", "quantifier": "every page session before, every program text, every order of pauses, answers, settings and edits during the run, every machine a host can have brought about", "why_tests_cant": "Quantifies over programs, over histories of the page, and over interleavings of unbounded length, including endless runs.", "anchors": ["mpp-front/src/pages/CPUTable/components/RunButtons.tsx:handleRunProgram", "mpp-front/src/pages/Coder/index.tsx:handleSaveToMemory", "mpp-front/src/pages/Coder/components/CodeEditor.tsx:handlePCChange", "mpp-front/src/lib/utils.ts:sleep", "mpp-cpu/src/lib/components/cu/cu.c:run_cu_clock_cycle"]}
{"id": "C78", "title": "The core allocates only in init, and a shutdown leaves exactly the same few blocks behind each time", "statement": "Clock cycles, resets, stores, setting PC and getters allocate nothing and free nothing, however many are made and in whatever state. After any history with i calls of init and s calls of shutdown, exactly 79*i - 78*s bus objects are allocated, the list of subscriptions has as many nodes, 79*i subscription objects are allocated, and the list of watchers has 15*(i-s) nodes; so a machine that is shut down leaves one bus, one node and 79 subscription objects behind.", "quantifier": "every history of API calls that respects the lifecycle, with any number of init and shutdown calls and of other calls between them", "why_tests_cant": "Leaks show only as growth over histories of unbounded length; the counts hold for every history and every run.", "anchors": ["mpp-cpu/src/lib/electronic/bus.c:create_bus_data", "mpp-cpu/src/lib/electronic/bus.c:destroy_bus_data", "mpp-cpu/src/lib/pubsub.c:subscribe_to", "mpp-cpu/src/lib/pubsub.c:unsubscribe_for", "mpp-cpu/src/lib/components/mxreg.c:shutdown_mxreg", "mpp-cpu/src/lib/watcher.c:unregister_watcher", "mpp-cpu/src/linker/linker.c:shutdown"]}
{"id": "C79", "title": "The programs of the documentation and the samples, run on the page, end with their documented result on the page", "statement": "A reader presses the button beside a program of the documentation (factorial of n >= 1, product from 0, the solutions of the exercises, the malicious function), or a user chooses a sample in the drawer; then saves it, sets PC and presses run-program, whatever was done on the page before while the text stayed as it was. The run can always be brought to its end by waiting; as soon as it is over, AC and memory are as documented and the page has been told of them. The run of the malicious function is never over by itself.", "quantifier": "every numeral in the programs, every stored page, every session before, every order of pauses, answers, settings and edits during the run, every machine a host can have brought about", "why_tests_cant": "Quantifies over operands, histories of the page and interleavings; one of the runs is endless.", "anchors": ["docs/src/components/Code/Code.tsx:openCode", "docs/src/pages/es/examples/factorial.mdx", "docs/src/pages/es/examples/multiplication.mdx", "docs/src/pages/es/examples/malicious-function.mdx", "mpp-front/src/pages/Coder/constants/examples.json", "mpp-front/src/pages/Coder/index.tsx:handleSaveToMemory", "mpp-front/src/pages/CPUTable/components/RunButtons.tsx:handleRunProgram"]}
{"id": "C80", "title": "The editor suggests exactly the mnemonics, the registers and the shortest capital numerals that begin with what is typed", "statement": "For every prefix, the list that Completer.js hands to the editor has no repetition, and a text is on it iff it begins with the prefix and is the mnemonic of an instruction the CPU decodes, one of AC, RB, RC, RD, RE, or the shortest capital hexadecimal numeral of a number up to FFFF. In particular nothing is suggested after a small letter or after a zero followed by anything, although the assembler reads such texts.", "quantifier": "every prefix and every suggestion", "why_tests_cant": "Infinitely many prefixes and 65 thousand candidate texts; exactness says also that nothing else is ever suggested.", "anchors": ["mpp-front/src/pages/Coder/Completer.js:getCompletions", "mpp-front/src/pages/Coder/constants/operations.json"]}
{"id": "C81", "title": "Each part of a statement gets the colour of its kind", "statement": "In every line that the assembler reads as a statement, with any blanks before and after and any comment, the label, the mnemonic, the register names, the operand and the comment get the classes of their kinds and everything else gets none. Exceptions, each shown to be real: a numeral spelled as a mnemonic or register (BC, ADD, AC) gets that class; what follows a label operand without a blank gets the class of the label; labels standing for a byte are left out, and so are labels with a tab inside. A line without a statement is blanks and a comment.", "quantifier": "every statement, spelling, label, numeral, blank and comment", "why_tests_cant": "The rules are regular expressions tried in order at every position; the statement quantifies over all texts of a line.", "anchors": ["mpp-front/src/pages/Coder/MppMode.js:MppHighlightRules"]}
{"id": "C82", "title": "The side bar of every page of the documentation links to every page once and marks the page itself", "statement": "Whatever the items of the side bar, the sections drawn are the items cut before every header, none lost, none moved. On each page of the documentation, asked for with or without .html, the bar links to every page once and to nothing else and marks exactly that page; the link to the source names the file from which the page was made, also with a slash at the end. With a slash at the end nothing is marked. Everything below /es/ is Spanish; for another pair of letters there is no side bar.", "quantifier": "every list of items, every page, every address of these forms", "why_tests_cant": "The grouping and the source link are proved for all lists and paths; the pages are the whole finite table.", "anchors": ["docs/src/components/LeftSidebar/LeftSidebar.astro", "docs/src/config.ts:SIDEBAR", "docs/src/layouts/MainLayout.astro", "docs/src/languages.ts:getLanguageFromURL"]}
{"id": "C83", "title": "The documentation keeps the theme the reader chose, without flicker", "statement": "Whatever a reader chooses and whichever pages they open, in any order: a page has the theme they chose last, or the system's preference when the page was opened if nothing was chosen yet; exactly its button is checked; and the script in the head of the next page sets the same theme as the button after it. If the storage holds another text, the script makes the page light, the button makes it dark, and neither button is checked.", "quantifier": "every sequence of choices and page loads, every stored text, every preference of the system", "why_tests_cant": "Sequences of any length; two pieces of code must agree in every state of the storage.", "anchors": ["docs/src/components/RightSidebar/ThemeToggleButton.tsx:ThemeToggle", "docs/src/components/HeadCommon.astro"]}
{"id": "C84", "title": "The lines of code in the documentation do what their pages say when tried out on the page", "statement": "A reader presses the button beside a line of code on a page about an instruction, or beside a part of the multiplication, and on the page that opens saves the text, sets PC and runs the program, at once or after whatever else they do while the text stays as it came. The run can be brought to its end by waiting, and whenever it is over, registers and memory are those before with the change the page describes, except PC, which is behind the added FIN, and the cells with the program. The loop of the multiplication, started with any RB, RC and any SP from 18 to FFFE (the stack then does not meet the program), ends with AC and the top cell of the stack equal to that cell before plus (RC-1) times RB modulo 256, RC = 1, SP one higher.", "quantifier": "every line on the pages, every machine before, every session of the page, every order of timers; for the loop every RB, RC (0 means 256), SP and memory", "why_tests_cant": "All registers, all memories and all sessions; the number of rounds of the loop depends on RC.", "anchors": ["docs/src/pages/es/instructions/ADD.mdx", "docs/src/pages/es/examples/multiplication.mdx", "docs/src/components/Code/Code.tsx:openCode", "mpp-front/src/pages/Coder/index.tsx:handleSaveToMemory"]}
{"id": "C85", "title": "Every clock cycle does what the documentation says of its microstate", "statement": "states.json gives for each microstate what it does (for instance S5: AC <- AC+2OP). From any machine a host can have brought about, also in the middle of any instruction, whichever microstate S k comes next: a clock cycle shows S k and does to the registers and cells what the text of S k says, reading all values before it, and nothing else. Where the ALU computes, the flags tell of what it computed whether it is zero and whether there was a carry. RF and RD are the source and destination register of the instruction in RI. The microstates for interrupts are never reached.", "quantifier": "every reachable machine, every microstate, every instruction in RI, all registers and memory", "why_tests_cant": "The table is read as a specification and must hold in every state of the machine; that nothing else changes is a statement about all 65536 cells and all registers.", "anchors": ["docs/src/pages/es/instructions/states.json", "mpp-cpu/src/linker/cu.c:run_clock_cycle", "mpp-cpu/src/lib/components/cu/rom.c"]}
{"id": "C86", "title": "A function that calls itself fills memory down to its own code", "statement": "The documentation says why the malicious function does not simply call itself: the stack grows until it overwrites the instructions. Let CALL a be at address a, below the stack. After n calls, for every n for which there is room, PC is a again, SP is lower by 2n, the stack holds the return address n times and nothing else is different. One call more and the operand of the CALL is overwritten: the same CALL, about to be executed again, no longer calls a.", "quantifier": "every machine about to execute such a CALL, every address a, every SP from a + 3 up, every n", "why_tests_cant": "The number of calls until the stack meets the program depends on both addresses; the claim is for all of them.", "anchors": ["docs/src/pages/es/examples/malicious-function.mdx:67-85", "mpp-cpu/src/lib/components/cu/seq.c", "mpp-cpu/src/lib/components/cu/rom.c"]}
{"id": "C87", "title": "2OP, H, L and RI are internal registers", "statement": "The documentation says of the auxiliary register that it is internal and the programmer has no access to it. The same holds of H, L and the instruction register: what an instruction left in any of the four has no effect on anything else later. Two machines between two instructions that differ at most in these four cannot be told apart by any later history of calls that does not read the four registers (or the raw internal buses): the same values are returned and the same errors reported, also in the middle of instructions. The halves PCH and PCL of PC are not internal in this sense: a CALL at FFFF pushes what they held before.", "quantifier": "every two reachable machines that agree on everything else, every later legal history of calls; for the halves, every machine about to execute CALL at FFFF", "why_tests_cant": "A leak of an internal register may need a particular opcode, microstate and stale value, and may show only many instructions later.", "anchors": ["docs/src/pages/es/components/2OP.mdx:9-11", "mpp-cpu/src/lib/components/cu/seq.c", "mpp-cpu/src/lib/components/cu/rom.c", "mpp-cpu/src/lib/components/cu/cu.c"]}
{"id": "C88", "title": "A program that does not end comes back to a state it was in", "statement": "From every state of a working machine, clock cycle after clock cycle, the machine is at last periodic: there are a first cycle and a period such that from then on it looks (registers, flags, memory, microstate) as it looked one period before. Run-program never ends if and only if, without meeting FIN, it comes back between two instructions to a state that looks like an earlier one. There is no third way: the program ends at FIN or repeats itself exactly.", "quantifier": "every reachable machine that is on, every contents of memory and registers, every number of cycles", "why_tests_cant": "The number of states is finite but far beyond enumeration; no run of a test shows that a program never ends.", "anchors": ["mpp-cpu/src/lib/components/cu/cu.c", "mpp-cpu/src/lib/components/cu/seq.c", "mpp-front/src/pages/CPUTable/components/RunButtons.tsx"]}
{"id": "C89", "title": "What was in memory before cannot be noticed by a history that reads only what was stored", "statement": "init fills memory with random bytes. Take any history of calls that respects the lifecycle, in which clock cycles and memory reads read only cells that were stored since the last init, by the host or by the program, and in which the data bus is not looked at; which cells a clock cycle reads and stores is taken from the documentation's list of microstates. Then for every other choice of the random bytes all calls return the same values and the same errors are reported. For the data bus this is false: after a fetch it shows the byte after the one fetched.", "quantifier": "every history of calls of any length, all random numbers of every init in it", "why_tests_cant": "There are 255^65536 contents of memory and unboundedly many histories; a test sees the memory one call of rand() gave.", "anchors": ["mpp-cpu/src/lib/components/mem.c", "mpp-cpu/src/lib/utils.c", "mpp-cpu/src/lib/linker/linker.c", "docs/src/pages/es/instructions/states.json"]}
{"id": "C90", "title": "A program saved at another offset does what its text says", "statement": "A program is saved with any offset in the drawer and PC is set to the offset. Then instructions and run-program do what the statements say at that address: numbers are addresses of the memory, labels name statements, CALL pushes the address of the next statement. This is false for label operands: the assembler counts them from 0, so a program that begins with JMP to a label goes astray at every offset but 0. What every program does instead: what its statements say with each label replaced by its distance from the first statement; so a program whose operands are numbers does what it says.", "quantifier": "every text of the language, every history of the drawer, every offset at which the program fits, every machine a host can have brought about, any number of statements", "why_tests_cant": "Programs, offsets and run lengths are unbounded; at offset 0, where the examples are tried, label operands are right.", "anchors": ["mpp-front/src/pages/Coder/index.tsx", "mpp-front/src/pages/Coder/components/CodeEditor.tsx", "mpp-front/src/lib/traslator/index.ts"]}
{"id": "C91", "title": "How many clock cycles instructions and programs take", "statement": "Every instruction takes exactly as many clock cycles as its page in the documentation has rows of microprogram (BEQ and BC one more when they jump), FIN two and IRET nine. A text that is saved and run takes exactly the sum over the statements carried out, and two for the FIN. SUM ACC UNTIL AC=5 takes 87 clock cycles. MULTIPLICATION of any a by any b takes 40 + 41(b-1), whatever a is, where b = 0 counts as 256.", "quantifier": "every machine state, every instruction, every text of the language, every number of statements, every pair of factors, every machine a host can have brought about", "why_tests_cant": "Programs, states and run lengths are unbounded; a test sees the number of one run.", "anchors": ["mpp-cpu/src/lib/components/cu/cu.c", "mpp-cpu/src/lib/components/cu/seq.c", "mpp-front/src/pages/CPUTable/components/RunButtons.tsx", "docs/src/pages/es/instructions", "mpp-front/src/pages/Coder/constants/examples.json"]}
{"id": "C92", "title": "Every program can be typed and every state can be brought about", "statement": "Any list of statements whose operands are of the kind of the instruction is the program of some text. Any sequence of instructions in machine code that fits in memory is what saving some text puts at the beginning of memory. From any state of the machine, even in the middle of an instruction, any values of the registers and flags can be brought about with the code drawer and eight presses of run-instruction, without touching the memory from the cell 16 on; and then any contents of the memory and of PC with calls of the core.", "quantifier": "every program, every sequence of instructions, every state to be reached, every machine a host can have brought about, every history of the drawer", "why_tests_cant": "Programs, byte sequences and pairs of states are unbounded or far too many; one numeral, AC, needs a special spelling.", "anchors": ["mpp-front/src/lib/traslator/index.ts", "mpp-front/src/lib/traslator/operations.json", "mpp-front/src/pages/Coder/index.tsx", "mpp-cpu/src/linker/mem.c:set_memory_value", "mpp-cpu/src/linker/registers.c:set_register_pc"]}
{"id": "C93", "title": "The documentation colours a program as the editor does", "statement": "highlight.js with the rules of the documentation gives every character of a program the class that the editor gives it in its line, and no class to the ends of the lines. The one exception is a numeral that begins with ACAC, which the documentation takes for two registers.", "quantifier": "every program of lines as in C81, whatever the number and length of its lines", "why_tests_cant": "Programs are unbounded; the two lists of rules have another order and other patterns, and the difference shows only in the address ACAC and the like.", "anchors": ["docs/src/components/Code/Code.tsx:12-53", "docs/src/components/Code/operations.json", "mpp-front/src/pages/Coder/MppMode.js"]}
{"id": "C94", "title": "A floating arrow begins and ends on the borders of its boxes, on the line between their centres", "statement": "getNodeIntersection finds, for two boxes at different places, the point at which the line between their centres crosses the border of the first; getEdgePosition names a side that is there; getEdgeParams joins the two ends. At the same place there is no arrow.", "quantifier": "all positions and all positive sizes of the boxes", "why_tests_cant": "The positions and sizes are rational numbers; the error shows only for boxes of different sizes.", "anchors": ["mpp-front/src/lib/ReactFlow/utils.ts:5-78", "mpp-front/src/pages/CPUTable/components/FloatingEdge.tsx", "mpp-front/src/pages/CPUTable/components/FloatingConnectionLine.tsx"]}
{"id": "C95", "title": "A UI callback that calls back into the core does nothing that a plain list of calls does not", "statement": "Let the UI callback be an arbitrary program over the exported functions, among them those that call the callback. A run goes through the same states and returns the same values as the list of its calls in the order in which they began; if those respect the lifecycle nothing undefined happens; a callback that only reads changes nothing; one that does not call a notifying function ends with calls nested two deep; one that always begins with a notifying call never returns.", "quantifier": "all callbacks, all pages, all depths of nesting, all states of the core", "why_tests_cant": "The callback is an unknown program whose calls depend on what it reads; calls nest without bound.", "anchors": ["mpp-cpu/src/linker/cu.c:139-143", "mpp-cpu/src/linker/mem.c:63-66", "mpp-cpu/src/linker/registers.c:98-104", "mpp-cpu/src/linker/linker.c:58-60", "mpp-front/src/lib/core/index.ts:320-330"]}
{"id": "C96", "title": "What init does when memory runs out", "statement": "init asks for 253 blocks. If it gets them it works. If a block is refused it is undefined, except that a refused subscription is passed over in silence: init then comes back, each refused block has cost one subscription and nothing else, and the bus concerned holds 0 whatever is called afterwards. With room for exactly m blocks init comes back iff m is 249, 251 or at least 253; with 251 the data bus shown by the page is 0 for ever.", "quantifier": "all allocators, all results of rand(), all reachable states, all later sequences of calls", "why_tests_cant": "malloc does not fail in tests, and there are 2^253 ways in which it could.", "anchors": ["mpp-cpu/src/lib/pubsub.c:30-51", "mpp-cpu/src/lib/linkedlist.c:6-22", "mpp-cpu/src/lib/electronic/bus.c:36-42", "mpp-cpu/src/lib/components/mem.c:38-50", "mpp-cpu/src/lib/watcher.c:22-34", "mpp-cpu/src/linker/linker.c:35-42"]}
{"id": "C97", "title": "The data bus has one driver", "statement": "Every word published on the data bus in a clock cycle is published by one of the components in its turn. In no cycle do two components drive the bus. The one that does is the one behind the single output bit (MEMbus, ALUbus, ACbus, REGbus, FLbus, PCHbus, PCLbus) that the control bits show after the cycle, and a bit shown was obeyed. A cycle that loads a register or the flags from the bus, or writes the memory, has a driver. A cycle without a driver leaves the memory and all registers alone except the program counter, the stack pointer and the flags.", "quantifier": "all reachable states, all clock cycles, all components, all turns of a component in a cycle", "why_tests_cant": "Two drivers would only be seen as a wrong word, in the microstate and with the register contents in which the second happens to speak last; a test compares final registers.", "anchors": ["mpp-cpu/src/lib/components/cu/cu.c:112-175", "mpp-cpu/src/lib/components/mem.c:105-150", "mpp-cpu/src/lib/components/alu.c:132", "mpp-cpu/src/lib/components/acumm.c:69", "mpp-cpu/src/lib/components/greg.c:125", "mpp-cpu/src/lib/components/controllers/flagsinta.c:64", "mpp-cpu/src/lib/components/pc.c:101-114", "mpp-cpu/src/lib/constants.h:53-83"]}
{"id": "C98", "title": "What the unit tests of the core ask holds for all inputs", "statement": "On a machine after init, for all control words and operands: the ALU, addsub and the accumulator leave on their buses and registers what alu_test.c, addsub_test.c and acum_test.c expect, and nothing else is changed. Whatever middlewares are added, a message passes exactly if all of its topic let it; a middleware can be removed. A watcher that was registered is found by its type, and can be unregistered exactly once.", "quantifier": "all words, all reachable machines and all states the test steps lead to, all lists of middlewares and of watchers", "why_tests_cant": "Each test tries one or two pairs of numbers; one of them is never called, and one passes although it writes outside an array.", "anchors": ["mpp-cpu/test/unit/lib/components/alu_test.c:58-336", "mpp-cpu/test/unit/lib/components/addsub_test.c:28-88", "mpp-cpu/test/unit/lib/components/acum_test.c:24-68", "mpp-cpu/test/unit/lib/pubsub_test.c:52-111", "mpp-cpu/test/unit/lib/watcher_test.c:8-24", "mpp-cpu/src/lib/pubsub.c:53-84", "mpp-cpu/src/lib/watcher.c:22-51"]}
{"id": "C99", "title": "The components of a clock cycle are run often enough, and their order matters only where it must", "statement": "If in the clock cycles of any allowed history memory and ALU are run any number of times from once on and in any order, the accumulator and the flags in any way that contains accumulator, flag inputs, flags in this order and the flag output before an accumulator and before a flag input, and the last five components in any order with the general registers before 2OP and H, L and these before PC, then all calls return the same values, and registers, memory, errors and all buses but that of the adder are the same at the end. So one round of ALU_MEM_RELATION is enough, two rounds of ACUM_FLAGS_RELATION are enough and one is not: LFA then loads the byte behind it. With PC first, an operand is read one byte too far.", "quantifier": "all reachable machines, all allowed histories of calls, all numbers and orders, chosen anew for each cycle and each place in it", "why_tests_cant": "The number of rounds and the orders are unbounded and chosen anew in each cycle; the factors in constants.h are there without a reason.", "anchors": ["mpp-cpu/src/lib/constants.h:50-51", "mpp-cpu/src/lib/components/cu/cu.c:112-136", "mpp-cpu/src/lib/components/cu/cu.c:138-175"]}
{"id": "C100", "title": "It does not matter where malloc puts the buses", "statement": "Let every init be given arbitrary addresses for its buses by malloc, provided that none of them is in use, also addresses that were freed by an earlier shutdown and are still held by old bus pointers and subscriptions. Then all calls of every allowed history are free of undefined behaviour and return the same values, reported errors are the same, and as long as the machine runs, registers, memory and the values of all buses are the same. Two buses never share an address.", "quantifier": "all reachable machines, all allowed histories of calls, all allocators, another one for each call", "why_tests_cant": "A test runs with the one allocator of the platform; histories and allocators are unbounded.", "anchors": ["mpp-cpu/src/lib/electronic/bus.c:36-49", "mpp-cpu/src/linker/linker.c:35-53", "mpp-cpu/src/lib/pubsub.c:75-118"]}
{"id": "C101", "title": "The time shown after a run is the time the program ran", "statement": "The time shown at the end of a run is the time from its beginning to its end without the time that was spent on the questions whether it should go on, however long its cycles and the answers took. Without updates of the page the question is put exactly when the program has run for more than ten seconds since the last one; with updates it is never put. The time is shown exactly if its switch in the settings is on, which is kept between visits and on in the beginning.", "quantifier": "all runs of any number of cycles, all times they take, all answers; all sequences of visits, runs and clicks, all contents of the storage", "why_tests_cant": "The start of the watch is moved at each question; numbers of cycles, times and answers are unbounded.", "anchors": ["mpp-front/src/pages/CPUTable/components/RunButtons.tsx:handleRunProgram", "mpp-front/src/pages/CPUTable/components/RunButtons.tsx:107-205", "mpp-front/src/pages/CPUTable/components/Settings.tsx:handleMeasureRunTimeChange", "mpp-front/src/lib/storage.ts:getStoredValue"]}
{"id": "C102", "title": "The switch for the tour shows whether the tour is open or will open by itself at the next visit", "statement": "The switch in the settings for the guided tour is on exactly if the tour will open by itself when the page is loaded again, and a click on it opens or closes the tour.", "quantifier": "all sequences of visits, clicks, openings and closings, all contents of the storage", "why_tests_cant": "The switch, the storage and the tour change at different moments, in unbounded sequences.", "anchors": ["mpp-front/src/pages/CPUTable/components/Settings.tsx:handleOnboardingChange", "mpp-front/src/pages/CPUTable/components/Settings.tsx:72-74", "mpp-front/src/pages/CPUTable/index.tsx:73-81", "mpp-front/src/App.tsx:62-70"]}
{"id": "C103", "title": "Labels are only names, and programs can be joined", "statement": "Two texts are assembled to the same bytes if they are the same statements in another spelling, if the labels have other names (different ones for different labels), if labels that nothing refers to are added or left away, or if label operands are replaced by the addresses they stand for. A text put behind another leaves the bytes of the first as they are; if it uses no label of the first, its own bytes are those it has alone, with its label addresses greater by the size of the first.", "quantifier": "all pairs of accepted programs that fit in memory and use labels as addresses, all renamings", "why_tests_cant": "Pairs of programs of unbounded length; labels are replaced in the texts one after the other, where one name may be the beginning of another.", "anchors": ["mpp-front/src/lib/traslator/index.ts:post", "mpp-front/src/lib/traslator/index.ts:calculateEtiquetasPos", "mpp-front/src/lib/traslator/index.ts:parseInput"]}
{"id": "C104", "title": "The page of the transpiler shows the translation of what is typed, each variable and each label once", "statement": "Whatever was typed before, the page of the transpiler shows either the message of the error in the text of its editor and nothing else, or the translation of this text; its button opens the simulator with this translation. The tables list each variable, and each label of the user, exactly once in the order of their first occurrence, with the address there in base 16, which is the only one if the transpiler gives each name one address. The page can be opened exactly if its first text has no error.", "quantifier": "all transpilers (parseCode is not in the repository), all first texts, all sequences of texts typed, all translations", "why_tests_cant": "The transpiler is an arbitrary function and the sequences of texts are unbounded; a state left over from an earlier text shows only in some sequences.", "anchors": ["docs/src/components/Transpiler.tsx:6-106", "docs/src/components/Code/Code.tsx:69-74"]}
{"id": "C105", "title": "What no statement of a program writes stays as it is, and plain programs cannot go wrong", "statement": "A program is typed, saved and run from its beginning, on any machine. As long as the statements say what happens (C75), each register, the flags, the stack pointer and each cell that no statement of the text writes are what they were, and so is the program in memory. A plain program (no stack, no STAX, STA only outside the program, jumps only to statements, a FIN or JMP at the end) never leaves its statements: either run-program ends at a FIN of the program, or any number of instructions can be carried out and run-program does not end; no error is reported.", "quantifier": "all accepted programs, all machines a host can have brought about, all numbers of instructions", "why_tests_cant": "Programs and runs of unbounded length, including those that do not end; a stray write or a wrong jump shows only in some states.", "anchors": ["mpp-front/src/lib/traslator/index.ts:translate", "mpp-front/src/pages/Coder/index.tsx:handleSaveToMemory", "mpp-cpu/src/lib/components/cu/cu.c:run_cu", "mpp-front/src/pages/CPUTable/components/RunButtons.tsx:handleRunProgram"]}
{"id": "C106", "title": "Programs that use the stack in an orderly way cannot go wrong", "statement": "A program begins with INISP. (a) If depths can be written beside its statements that fit to its PUSHes and POPs, with room for them between the program and the beginning of the stack, then whenever a statement is reached SP is where its depth says. (b) If it is made of functions that take away what they put on the stack, that store nothing on it, and that need less stack than is left to their callers, then the return addresses on the stack are those of the CALLs, each RET leads to the statement after a CALL of its function. In both cases, typed, saved and run from its beginning on any machine, either run-program ends at a FIN of the program or any number of instructions can be carried out and run-program does not end; no error is reported and the program in memory stays as it was saved.", "quantifier": "all accepted programs with such depths, all machines a host can have brought about, all numbers of instructions", "why_tests_cant": "Programs of any length, calls nested to any depth and runs of any length, including those that do not end; a wrong byte of a return address shows only at some addresses.", "anchors": ["mpp-front/src/lib/traslator/index.ts:translate", "mpp-front/src/pages/Coder/index.tsx:handleSaveToMemory", "mpp-cpu/src/lib/components/cu/cu.c:run_cu", "mpp-front/src/pages/CPUTable/components/RunButtons.tsx:handleRunProgram"]}
{"id": "C107", "title": "What is enough for a program to end, and after how many instructions", "statement": "A program is typed, saved and run from its beginning, on any machine. It reaches a FIN, and run-program ends there, (a) after fewer instructions than it has statements, if it is plain and its jumps lead forwards; (b) after at most as many instructions as its first statement costs, if it is made of functions that use the stack in an orderly way and costs can be written beside its statements, each more than what it leads to, a CALL more than the function and what comes after it together; (c) after at most mu instructions, if each statement makes mu smaller, whatever mu is, and what is kept by all statements holds at the end. Run-program takes three to nine clock cycles for each of these instructions and two for the FIN. Plain programs need not end.", "quantifier": "all accepted programs, all machines a host can have brought about, all measures", "why_tests_cant": "That a program ends on every machine is a statement about runs of unbounded length from all states of registers and memory.", "anchors": ["mpp-front/src/lib/traslator/index.ts:translate", "mpp-front/src/pages/Coder/index.tsx:handleSaveToMemory", "mpp-cpu/src/lib/components/cu/cu.c:run_cu", "mpp-front/src/pages/CPUTable/components/RunButtons.tsx:handleRunProgram"]}
{"id": "C108", "title": "What a program does not read does not matter", "statement": "A text is typed and saved on two machines, and beside each statement of its program stands a set of registers, flags and cells: what the statement reads is in it, and what stands beside a statement that may come next stands beside this one too, unless this one writes it. If the machines agree on what stands beside the first statement, cells of the program itself excepted, the same statements are carried out on both, the machines agree on what stands beside each statement that is reached, and at a FIN run-program ends on both after the same number of clock cycles; or it ends on neither. A statement's reads matter even for the time alone.", "quantifier": "all accepted programs, all pairs of machines a host can have brought about, all such sets", "why_tests_cant": "It compares two runs of unbounded length from all pairs of states of registers and memory.", "anchors": ["mpp-front/src/lib/traslator/index.ts:translate", "mpp-front/src/pages/Coder/index.tsx:handleSaveToMemory", "mpp-cpu/src/lib/components/cu/cu.c:run_cu", "mpp-front/src/pages/CPUTable/components/RunButtons.tsx:handleRunProgram"]}
