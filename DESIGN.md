# Formal model of nullxx/mpp (M++ simulator)

The code has a C core (`mpp-cpu/src`), compiled to WebAssembly and driven through
the exported "linker" functions, and a TypeScript front end (`mpp-front/src`) with
an assembler, a disassembler, a code drawer and the run buttons. Properties are in
`properties.jsonl`; theorem names per property are in `MANIFEST.json`. Attempts to
break the theorems by editing the model are logged in `seeded/LOG.jsonl`.

## Trusted base

* Lean 4.33.0 kernel. Every property theorem depends on a subset of `propext`,
  `Classical.choice` and `Quot.sound`; `tools/axioms.sh` prints the axioms of every
  theorem named in the manifest. No own axioms, no `sorry`, no `native_decide`, no
  `bv_decide`.
* The hand translation of the C and TypeScript sources into the definitions listed
  below. Each definition cites the file and lines it models. Nothing was compiled or
  run. `operations.json` is copied by `tools/gen_ops.py`;
  `tools/check_tables.py` compares the other copied tables and `tools/check_cites.py` looks up every citation.
* C semantics: `int` is 32-bit two's complement; `malloc` never fails; `>>` on a
  negative `int` is arithmetic. Signed overflow, signed left-shift overflow, NULL
  dereference, use after free, double free and array overrun are a separate outcome
  (`none`) of the model.
* ECMAScript semantics: strings are lists of Unicode scalar values (the code's regular
  expressions and string functions treat no character above U+FFFF specially);
  `parseInt(s, 16)`, `split`, `trim`, `replace`, `splice` and the regular expressions of
  `operations.json` are modelled in `Front/Assembler.lean`.

## Modules

### Model of the code

| Module | Code |
|---|---|
| `Word` | `lib/definitions.[ch]`, `get_bit`: words as arrays of 32 ints, the C loops, undefined behaviour explicit. Shown equivalent to `BitVec 32`, which the other modules use for `Word` and `int`. |
| `LinkedList` | `lib/linkedlist.c`, lists of `lib/watcher.c`: nodes in a heap. Shown equivalent to list operations. |
| `PubSub` | `lib/pubsub.c`, `lib/electronic/bus.c`: heap of bus objects, subscriptions, middlewares. |
| `Prog`, `Components`, `Tables`, `Names` | `lib/components/**`, function by function, as programs over primitive operations (bus update and read, publish, register and memory access, error report); control store and sequencer table. |
| `Host` | the exported API (`linker/**`, `lib/clock.c`, `lib/watcher.c`, `lib/error.c`, init and shutdown lists) over the whole C state `H`. |
| `Logger` | `lib/logger.c`, `lib/error.c`; the messages of the core. |
| `Utils` | the other functions of `lib/utils.c`. |
| `Observe` | what the getters show; the run loops of `RunButtons.tsx`. |
| `Diagram` | the boxes of `nodes.tsx`, the exported getters by name (`lib/core/index.ts`, `linker/bus.c`), `ALUNode.tsx`. |
| `Panel` (first part) | the panel of microstates (`StateTransition/index.tsx`, `constants.json`). The second part reads its texts as register transfers and is a specification. |
| `Buttons` | the run buttons of `RunButtons.tsx` with the stop button. |
| `Front/Ops`, `Front/Assembler` | `lib/traslator/operations.json`, `lib/traslator/index.ts`. |
| `Front/Debugger` | `lib/debugger/index.ts`, `DebuggerNode/index.tsx`. |
| `Front/NumberBox` | `components/NumberBaseInput.tsx`, `constants/bases.ts`. |
| `Front/MemPanel` | `MemoryNode.tsx`. |
| `Front/DebugPanel` | `DebuggerNode/index.tsx`, without the scrolling of the list. |
| `Front/Link` | `openCode` of the documentation, the parameters of `Coder/index.tsx`, `useTextFile`; UTF-8 and URL encoding after the standards. |
| `Front/Marks` | markers and annotations of `CodeEditor.tsx`. |
| `Front/Stored` | `lib/storage.ts` and its use in `CodeEditor.tsx`, `Settings.tsx`, `RunButtons.tsx`, `CPUTable/index.tsx`. |
| `Front/Texts` | `lib/i18n/{en,es,eu}.json` and the keys in use (generated by `tools/gen_i18n.py`). |
| `Front/I18n` | `lib/i18n/index.ts`, `components/i18n.tsx`, the language in `Settings.tsx`. |
| `Picture` | `hook/useUpdateEdges.ts`, `constants/edges.tsx`, the state of `RegisterNode`, `BusNode`, `FlagsNode`, `ALUNode`. |
| `Handles` | the handles of the boxes (`Handles.tsx` and the node components) and those named in `edges.tsx`. |
| `Front/Changelog` | `Changelog/index.tsx`, with GitHub as an arbitrary source of answers. |
| `Front/Backend` | `lib/core/index.ts` and `App.tsx`: loading, initialising and leaving the core; the table of wrapped functions. |
| `Front/Docs`, `Front/Factorial`, `Front/Malicious`, `Front/Product0`, `Front/Exercises` | The programs and the solutions of the exercises in `docs/src/pages/es` with their machine code and runs. |
| `Front/Session` | the page as a whole while programs run: `RunButtons.tsx` with its state and its suspended functions, `lib/utils.ts` (`sleep`), with the settings, the code drawer and the core. |
| `Front/Coder` | `pages/Coder/index.tsx`, `pages/Coder/components/CodeEditor.tsx`. |

### Specifications (no reference to the code)

| Module | Content |
|---|---|
| `Isa` | programmer's view `P` and the effect of each documented instruction. |
| `Rtl` | register-transfer meaning of each microstate. |
| `Bus` (first part) | what each microstate leaves on the data and address bus. |
| `Front/AsmSpec` | the assembly language: spelling, statements, labels, machine code. |
| `Front/Listing` | `TranslatedEditor.tsx` and the string that `CodeEditor.tsx` gives to it. |
| `Front/Labels` | the names on the boxes (`constants/nodes.tsx`, `lib/i18n`) |
| `Front/Editing` | `mpp-front/src/pages/Coder/Completer.js`, the rules of `MppMode.js` |
| `Front/Site` | navigation and theme of the documentation: `docs/src/languages.ts`, `config.ts`, `layouts/MainLayout.astro`, `components/LeftSidebar`, `components/RightSidebar/ThemeToggleButton.tsx`, `components/HeadCommon.astro`, the names of the files in `docs/src/pages` |
| `Front/Snippets` | the lines of code on the pages `docs/src/pages/es/instructions/*.mdx`, the parts of `docs/src/pages/es/examples/multiplication.mdx` |
| `Front/MicroText` | `docs/src/pages/es/instructions/states.json` and its reading |
| `Front/Elsewhere` | specification: the meaning of statements at another address, and its simulation by the machine (C90) |
| `Front/Colours` | `docs/src/components/Code/Code.tsx:8-53,67` (the rules for highlight.js; not what it marks inside comments) |
| `Front/Floating` | `mpp-front/src/lib/ReactFlow/utils.ts:5-78` over rational numbers, `NaN` being an outcome of its own (not used by the page) |
| `Reenter` | the UI callback as an arbitrary program over the exported functions: `mpp-cpu/src/linker/cu.c:139-143`, `mem.c:63-66`, `registers.c:98-104` |
| `OutOfMemory` | `init` when `malloc` may return NULL: `pubsub.c:30-51`, `linkedlist.c:6-22`, `electronic/bus.c:36-42`, `components/mem.c:38-50`, `watcher.c:22-34` |
| `Drivers` | the turns of the components in a clock cycle: `cu/cu.c:112-175` |
| `UnitTests` | the steps of the unit tests `alu_test.c`, `addsub_test.c`, `acum_test.c`; the array of middlewares (`pubsub.c:53-84`, `128-136`); `watcher.c:36-51` on list nodes |
| `Schedule` | `run_cu` with the rounds and orders as parameters (`Plan`); the plan of the code is the code |
| `Settle` | what a plan has to contain (`Plan.Enough`) and why this is enough |
| `Malloc` | `create_bus_data` with an arbitrary allocator |
| `Front/Timing` | the stop-watch of `handleRunProgram`, its switch and the switch of the tour |
| `Front/Transpiler` | `docs/src/components/Transpiler.tsx`, with `parseCode` (a submodule that is not in the repository) as an arbitrary function |
| `Front/SourceRun` | the meaning of the statements of a program, without machine code. |

### Proof devices

`Lifecycle` (init and shutdown), `TopicMachine` (one value per topic), `Typed`,
`TypedSim`, `TypedRules` (nominal widths), `Micro`, `Seq`, `Machine`, `Trace`, `IsaSim`,
`RunSim` (from microstates to instructions and run loops), `History`, `Loader` (every
programmer's state is reachable), `Undefined`, `Data`, `Pair`, `Messages`, `Contain`,
`BadFetch`, `Bus` (second part), `Told`; `Front/Lex`, `Table`, `Hexa`, `Line`, `Text`, `Post`, `Program`, `Layout`,
`Render`, `Shown`, `Saved`, `Runs`, `Samples`, `Samples2`, `SourceSim`.

The refinement chain of the core is: heap machine `H` -> topic machine `T` -> typed
machine `A` -> visible state `V` with a microstate -> programmer's view `P`. Each step is
a simulation proved for all states and all calls; property theorems are stated on `H`,
through API calls and what the getters return.

### Property theorems

`Props/Basics` (C21, C22, C24-C27, C35, C45), `Props/Instructions` (C01-C10), `Props/Cpu`
and `Props/Cycle` (C11, C12, C16-C18, C20, C31-C33), `Props/Machine` (C13-C15, C19, C23,
C28-C30, C34), `Props/Contain` (C44), `Props/Buttons` (C51), `Props/Diagram`, `Props/Labels` (C52), `Props/Panel` (C53),
`Props/Boxes` (C54), `Props/MemoryBox` (C55), `Props/Marks` (C56), `Props/Stored` (C57, C58), `Props/Session` (C59),
`Props/I18n` (C60), `Props/Picture` (C61), `Props/Backend` (C62), `Props/Docs` (C63–C66), `Props/DebugBox` (C67), `Props/Link` (C68, C69), `Props/Logger` (C70, C71), `Props/Utils` (C72),
`Props/Handles` (C73), `Props/Changelog` (C74), `Props/Source` (C75), `Props/Listing` (C76), `Props/Play` (C77), `Props/Blocks` (C78), `Props/Played` (C79), `Props/Editing` (C80, C81), `Props/Site` (C82, C83), `Props/Snippets` (C84), `Props/MicroText` (C85), `Props/Recursion` (C86), `Props/Internal` (C87), `Props/Periodic` (C88), `Props/Unread` (C89), `Props/Elsewhere` (C90), `Props/Time` (C91), `Props/Every` (C92), `Props/Colours` (C93), `Props/Floating` (C94), `Props/Reenter` (C95), `Props/OutOfMemory` (C96), `Props/Drivers` (C97), `Props/UnitTests` (C98), `Props/Schedule` (C99), `Props/Malloc` (C100), `Props/Timing` (C101, C102), `Props/Names` (C103), `Props/Transpiler` (C104), `Props/Plain` (C105), `Props/Depth`, `Props/Calls` (C106), `Props/Costs` (C107), `Props/Alike` (C108),
`Props/Assembler` (C36-C39, C46), `Props/Drawer`
(C40, C41, C47, C50), `Props/Examples` (C42, C43, C48, C49).

## Not modelled

* Rendering and React state other than that of the drawer, the run buttons, the panel of microstates, the number
  boxes, the memory box, the boxes and arrows of the diagram, the stored settings, the code in the editor and the
  translated texts; the steps of the tour,
  the Ace editor (its markers and annotations are modelled as the values it is given), the file chooser and the error branch of the file reader.
* Timing (`clock()`), the `log_debug` lines of a DEBUG build, `main`.
* Emscripten and the C compiler.
* The random values of `rand()` are a parameter of `init`.

## How each property is proved

| Property | Proof |
|---|---|
| C01-C10 | `Isa` per instruction group; per-microstate lemmas on the typed machine; composition along the sequencer path; lifted to API calls by refinement. |
| C11, C12, C13, C32, C33 | paths of all 256 opcodes and flags computed from the truth table (the whole finite table, decided), lifted to all states. |
| C14, C15 | embedding invariant by induction over API histories on the heap machine. |
| C16 | induction on the list of bytes over the instruction set, lifted. |
| C17 | the saturating PC and SP loads. |
| C18, C27 | run loops as fuel-free relations; induction over the number of instructions. |
| C19, C20, C31 | refinement; per-cycle frame theorem from per-microstate lemmas. |
| C21, C22, C25, C26 | direct on the library models, arbitrary lists, induction. |
| C23 | coherence invariant on the heap machine. |
| C24 | loop proofs on `Word`. |
| C28, C30 | simulation of two machines that run the same calls. |
| C29 | array laws on the API. |
| C34, C35, C45 | arithmetic and decision logic. |
| C36-C39, C46 | token-level description of what the patterns match; induction over lines; termination of the splice loops by a measure. |
| C40, C41, C47, C50 | induction over the listing and over the slots; invariant over the user's actions in the drawer. |
| C42, C43, C48, C49 | loop invariants over the instruction set, lifted through the assembler, the drawer and the run loop. |
| C44 | heap machine with unrestricted cells. |
| C53 | the 45 texts parsed by `decide`, compared with the register transfers one by one; the register fields of all 256 opcodes decided; invariant over sessions. |
| C54 | positional numerals by induction on the number; invariant over the events of a box. |
| C67 | as C55; the rows tile the window (C47), each comes from its first cell; induction on the rows before the highlighted one, along the statements of a program. |
| C68, C69 | the decoder inverts the encoder, by induction on the text; the 256 bytes of the URL encoding are decided completely. |
| C70 | every microstate (rtl) and every abstract call, lifted with `Desc.calls` (as C15). |
| C71 | the array holds the registered callbacks followed by null ones; induction on the calls and on both loops. |
| C72 | induction on the number. |
| C73 | C61 for the arrows; the tables of arrows and handles decided completely; register boxes by cases. |
| C74 | invariants over sequences of clicks and answers. |
| C75 | simulation of statements by instructions with the code in memory as invariant; lifted with C18, C41 and C57. |
| C76 | invariant over page sessions that ties the drawer to the text in the editor; lifted through C37 and C41. |
| C77 | invariant over a run that is left alone (part of the loop done so far), determinism of the loop, induction for its end; with C75. |
| C78 | every primitive keeps the allocated blocks; induction over the statements of `init` and `shutdown` with the lifecycle invariants; induction over histories. |
| C79 | C42, C43, C48, C49, C63-C66 carried through C68, C76 and C77; determinism of the loop. |
| C80 | the 65536 numerals described by their digits (no enumeration); the mnemonics and registers decided. |
| C81 | what each rule matches at each position, by induction over the text; scan composed along the parts of the line. |
| C82 | induction over the items; the table of pages decided; the path handled for every text. |
| C83 | invariant over the events of the reader. |
| C84 | the statements of the lines, then C75 and C79; induction on RC - 1 for the loop. |
| C85 | case by microstate on the register-transfer level, lifted by the refinement; which register RI selects, decided for all opcodes and their paths. |
| C86 | induction on the number of calls, over the refinement. |
| C87 | relation between two runs (`Pair`), with the registers that may be different tracked along every path. |
| C88 | refinement to the typed machine, pigeonhole over its finitely many states, induction on the cycles. |
| C89 | two machines that differ in memory, by induction on the history; one lemma for all 45 microstates. |
| C90 | simulation of statements by instructions as in C75, with the address of the program as a parameter; label operands are first replaced by numbers, which have the same code. |
| C91 | the path of the control unit for each instruction has the length of the documented table; sums by induction on the statements of C75; the multiplication by induction on the counter. |
| C92 | a text is constructed from the statements (numbers with a zero in front, so that none is AC) and read back by the specification of the language; the registers are set by a program of eight statements (C75). |
| C93 | along the line: at a word that stands apart the two lists of rules have the same first match, and the words of a statement stand apart. |
| C94 | algebra over the rational numbers: the sum of the two absolute values is twice the larger of the two distances, measured in sizes of the box. |
| C95 | refinement of nested calls to a list of calls, by induction on the depth and on the script; the callback is a free program over the API. |
| C96 | induction on the statements of `init` for an arbitrary allocator; an invariant of the heap (no pointer beyond the blocks handed out) and one of a bus without subscription. |
| C97 | each component's messages, read off its program for every state (`Hush`, `Never`, `Speaks`); the control word is constant from the ROM to the end of the cycle, an invariant of the turns (`turn_control`); finite decision over the 45 rows of the ROM. |
| C98 | the topic machine run on symbolic words, lifted by `sim`; an invariant of the array of middlewares; the lists of C25. |
| C99 | components as steps that stay or lead to fixed points (`Stays`, `Leads`), so that a list only has to contain certain sublists; each microstate by itself; equality up to the adder bus carried through histories. |
| C100 | the invariant of `init` again, with an arbitrary free address in place of a new one; the rest of the history argument does not look at addresses. |
| C101, C102 | telescoping sums over the turns of the loop; invariants over sequences of clicks and visits. |
| C103 | uniqueness of the machine code of a program (C37), for two programs whose operands stand for the same numbers. |
| C104 | the state after a change depends on the last text only; positions and first positions of a list; C68 for the button. |
| C105 | a frame for each statement of the source, by induction on the run; progress of plain statements (C75_goes_on); lifted by C75. |
| C106 | invariants of the source semantics: SP is where the depth of the statement says; the return addresses on the stack are a chain of frames (`Framed`) above SP. Progress by C75_goes_on, lifted by C75. |
| C107 | well-founded induction on a measure of source states; for functions the measure is the cost of the statement and of all pending return statements. Lifted by C75. |
| C108 | simulation between two runs of the source semantics that agree on the live registers, flags and cells. Lifted to two machines by C75 and C91. |
| C55 | refinement of the getters; invariant over sessions of core calls and user actions. |
| C56 | induction over the lines, with the labels declared anywhere in the text. |
| C57, C58 | the assembler theorems on the extended text; invariants over visits and changes. |
| C59 | invariants over sequences of events: which function waits, what it has run, what was notified. |
| C60 | the tables decided as a whole; invariant over the mounted components and their listeners. |
| C61 | invariant: the held arrows are those of the beginning up to their looks; C52 for the highlights. |
| C62 | invariant over all orders of events: the core in use is reachable (C15) and running; C34 for freshness. |
| C63–C66 | the text is assembled (C38, C57), saved and run (C18); induction on n for the recursion, on the rounds for the endless loop, on the second factor for the product. |
| C52 | per-microstate bus values on the typed machine, the control store decided row by row, lifted by refinement. |
| C51 | run loops with any continuation after each cycle; no instruction path returns to S0 early. |

## Findings

### Core

* `rom.c:120` bounds check is off by one (`>` instead of `>=`); harmless because state 45
  is unreachable.
* `seq.c` rows are not mutually exclusive although line 202 claims so: 0xC3 at S17 with
  FC = 0 matches two rows; the first wins.
* The interrupt path (opcode 0xC6, S25, S27, S30, S42) is unreachable; opcode 0xC6 at S1
  has no row and goes back to S0.
* `init_buses` is never called, so no bus overflow middleware is active.
* `rm_topic_middleware` writes one past the array and leaves a dangling pointer: undefined
  for every registered middleware.
* `set_memory_value` dereferences NULL out of range and does not check the value.
* `set_register_pc` does not update PCH and PCL and does not check the value.
* `shutdown_mxreg` releases neither its control bus nor the subscription for it, and subscription objects are never
  freed: each `init` and `shutdown` leave one bus, one list node and 79 subscription objects (`C78_leak`). A second `init` without
  `shutdown` leaks but is otherwise harmless (histories may contain it; C26, C28); a run
  after `shutdown` uses freed buses and a second `shutdown` frees twice (`C15_needed_off`).
* The registers H, L and 2OP load without the range check the others have. A fetch of a
  cell outside 0..255 reports an overflow and goes to S1 with the previous instruction in
  RI (C44).
* LFA first loads stale bus data into AC, and memory writes first write stale data, then the
  right data, to the same address within the cycle.
* Opcodes 0x34-0x3F, 0x4C-0x4F and 0x6C-0x6E are undocumented but change flags (C12, C32).
* `subscription_count` is an `int` that is never reset: it overflows (undefined, as in the
  model) after about 27 million calls of `init` with 79 subscriptions each.
* Run-program, started inside an instruction at S1 with RI = 0xFF, stops after the next
  fetch; so stopping it right after the fetch of FIN and pressing it again runs past the FIN
  (`C51_program_resume_wrong`).
* FIN is recognised by the front end, not by the core.

* The buses are evaluated again after the registers are loaded. After a fetch the data bus
  shows the byte after the fetched one; after ADD, SUB, XOR and NOT it shows the operation
  applied once more to the new AC (`C52_fetch_wrong`, `C52_alu_wrong`).
* The diagram draws PC and SP as loaded from the data bus; they are loaded from the address
  bus (`C52_on_address`). The load of PCL and PCH by RET has no line in the diagram.

* The panel of microstates numbers S44 as S43 (`constants.json:179`, `C53_number_wrong`).
* Every byte saved into memory adds a row to that panel, so after saving a program it says that S0
  was executed twice (`C53_saved_wrong`).

### Documentation

* `OR.mdx:50` lists S12 where the machine visits S2 (`C33_or_wrong`). `AND.mdx:69` labels
  its S12 row as S1. `states.json` gives S43 the text of S44, and `constants.json` has
  state 43 twice. No microprogram is documented for IRET, FIN, CMP with immediate or AC,
  and MOV AC to a register. The text of SFA contradicts its table.

### Front end

* A label used as 8-bit immediate emits three bytes although two are counted
  (`C36_byte_label`).
* A carriage return or U+2028/2029 inside a line lets the assembler emit what is not a
  program (`C37_terminator`).
* The hexadecimal byte AC cannot be written `AC`: it names the register (`C38_ac`).
* Of two statements with the same label the first wins, without an error. Labels may
  contain any character but the space. Two spaces or a tab after a label are an error.
* The disassembler does not zero-pad operand bytes, so listings are ambiguous
  (`C50_ambiguous`).
* The highlighted row of the debugger need not begin at PC (`C47_misaligned`): with `LDA 7474` five times
  at 0 and PC at the last one, the box as it opens highlights `JMP 7074` (`C67_wrong`).
* A number box keeps its mark of an error after the number or the base changed
  (`C54_mark_wrong`); in base ten it takes fractions and drops them (`C54_point`).
* The search box of the memory takes any number; 2^32 shows cell 0 (`C55_alias_wrong`). Offsets are
  written with small letters, everything else with capitals.
* Marks in the editor are computed on the trimmed line, so on an indented line they lie too far to the
  left (`C56_indent_wrong`). A label counts as declared on a line that is itself an error; a jump to it
  then disappears from the annotations without a mark, and the line after it shows an unresolved label
  (`C56_lost`).
* A `FIN` is added to the code in the address unless its last letters are FIN and one blank: too often
  when the code ends with `FIN` alone (`C57_twice`), not at all when a comment or a label ends so
  (`C57_missing_wrong`). Reloading the page with code in the address discards the edits (`C57_reload`).
* An emptied box for the cycle time stores `null`, and 500 is used (`C58_empty_wrong`).
* A press of the stop button during the first 100 ms of a run without updates is lost, because
  `_running.current = true` comes after that pause (`C59_stop_lost`). Setting the cycle time to 0 while
  a program runs with pauses disables the stop button; an endless program then cannot be stopped, and
  the dialog for long runs does not appear (`C59_stop_wrong`).
* The memory box asks for the text `memory.writting`, the tables have `memory.writing`: it says nothing
  while memory is written (`C60_writing_wrong`). The listener of a translated text keeps the key it
  began with, so a change of language during a run makes the status line say "stopped"
  (`C60_status_wrong`). With a browser in another language the settings show a language that is not
  offered (`C60_offered_wrong`); the default `es` in the settings is never used.
* Arrows of release lines get a label but never move (`C61_release_wrong`), and the arrow from the data
  bus to the memory always moves (`C61_memory_wrong`; a comment in `edges.tsx` says that this is meant).
  `FlagsNode` uses `hasChanged` before React need have run the functions that set it, so a change of the
  flags may not be highlighted (`C61_flags_wrong`). RET changes PC without a line
  (`C61_highlight_wrong`).
* Two calls of `connectBackend` that overlap (React StrictMode mounts `App` twice) make two cores; the
  second replaces the first together with the memory (`C62_kept_wrong`). A failure of the second call
  hides the page although the first core works. `exportedMethods` lists `get_register_acum` twice and
  declares `linker_set_update_ui` without its argument (`C62_table`); `cwrap` passes it anyway.
* Documentation: the solution of the POP exercise reads 0x8563 where 0x8523 is asked for
  (`C65_pop_wrong`); that of the PUSH exercise does not set SP, which is 0 after switching on, so it
  reports three errors and overwrites its own first cell (`C65_push_wrong`). The factorial program gives
  0 for 0 while the Java on its page gives 1 (`C63_zero_wrong`). `SFA.mdx:21-22` swaps ZERO and CARRY (the
  picture below it is right). `AND.mdx:69` shows the text of S1 for S12, `OR.mdx:50` that of S2.
* A program that begins with U+FEFF loses that character when it is saved and opened (`C69_wrong`).
* Without `DEBUG` the logger drops FATAL messages, so a fatal error would end the program silently
  (`C71_fatal_wrong`; the core throws none).
* `random_int(min, max)` gives `min..min+max-1`; memory is never filled with 255 (`C72_random_wrong`).
* `num_to_str` is undefined for negative numbers, `get_num_digits(0)` is 0 (both unused by the core).
* A CALL in the last cell of memory stores PCH and PCL instead of the address after it; after
  `set_register_pc(0xFFFF)` these are not even those of PC (`C09_last`).
* The list of changes: the tab of the commits empties the list of the version (`C74_missing_wrong`), a click
  while it is loaded loads it again (`C74_twice_wrong`), and its error is never removed (`C74_error_wrong`).
* The editor suggests only capitals and numerals without leading zeros: nothing after a small letter, nothing
  after `0` followed by anything, so never an address with four digits such as 001F (C80).
* The colours treat the comment, comma or register right behind a label as part of the label, and the numeral
  `BC` as an instruction (C81).
* With a slash at the end of the address no page of the documentation is marked in the side bar (C82).
* If `localStorage.theme` holds another text than `light` or `dark`, the script in the head makes the page light and
  the button then makes it dark (C83).
* The last line of `states.json` (S43, `RD ᐊ 2OP`) describes S44, which the file does not list; S43 is SP + 1 (C85).
  Not formalised: the table for AND AC shows the text of S1 beside S12 (`AND.mdx:69`), that for OR with a register
  the text of S2 beside S12 (`OR.mdx:50`; the machine goes through S2, C33).
* `about.mdx:15` counts 12 registers and lists 11.
* A CALL at FFFF pushes stale halves of PC: what the last instruction before a jump by the host left there (C87).
* After a fetch the data bus shows the byte after the fetched one, which may be one of the random bytes of `init`
  (`C89_data_bus`): memory is selected again after PC was incremented.
* The rule for registers of the documentation lacks the `\b` of the editor's: in the address `ACAC` it
  shows two registers, and in any word that contains the name of one it shows that (C93).
* A floating arrow (not used by the page) does not point to the centre of a box of another size, and
  while it is drawn it does not begin in the direction of the pointer: the size of the first box is taken
  for that of the second (`C94_missed`).
* When there is no memory for a subscription, `init` goes on in silence with a bus that never hears
  anything; all other failed allocations are undefined (`C96_lost`, `C96_silent`).
* `test_run_alu_and` wants FZ = 0 for 0 AND 1, which is false; it is not called (`C98_and_wrong`).
* `rm_topic_middleware`, tested by `pubsub_test.c`, writes one element past the array whenever it is
  called on a middleware (`C98_rm_wrong`).
* Of the two factors "factorial(2)" in `constants.h:50-51` the first could be 1, in any order; the second
  is needed (`C99_rounds`, `C99_once_wrong`).
* At the first visit the switch for the tour is on although the tour will not open by itself again; the
  first click on it closes the tour, the second opens it, and then it is off with the tour open (C102).
* The page of the transpiler cannot be opened at all if its first text has an error: only later errors are
  caught (C104; the text on the page is presumably free of errors).
* Saving is enabled before any code was translated, with nothing to save. Changing the
  offset re-evaluates whether saving is enabled with the old code although the new code has
  errors (the input is disabled meanwhile).
* Labels are resolved for offset 0 whatever the offset of the save (`C90_label`; FIXME in
  `CodeEditor.tsx`), so jumps of a program saved elsewhere are misplaced.
