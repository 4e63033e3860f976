{
 "claims": [
  {
   "property": "C01",
   "status": "proved",
   "theorems": [
    "Mpp.C01_mov"
   ],
   "note": "For every PC and SP. Where PC or SP meets an end of memory the theorems say that it stays there and what is reported (p.past, p.pushed, p.popped; no error where there is room: P.past_room, P.pushed_room, P.popped_room)."
  },
  {
   "property": "C02",
   "status": "proved",
   "theorems": [
    "Mpp.C02_add",
    "Mpp.C02_sub",
    "Mpp.C02_cmp"
   ],
   "note": "For every PC and SP. Where PC or SP meets an end of memory the theorems say that it stays there and what is reported (p.past, p.pushed, p.popped; no error where there is room: P.past_room, P.pushed_room, P.popped_room)."
  },
  {
   "property": "C03",
   "status": "proved",
   "theorems": [
    "Mpp.C03_logic"
   ],
   "note": "For every PC and SP. Where PC or SP meets an end of memory the theorems say that it stays there and what is reported (p.past, p.pushed, p.popped; no error where there is room: P.past_room, P.pushed_room, P.popped_room)."
  },
  {
   "property": "C04",
   "status": "proved",
   "theorems": [
    "Mpp.C04_inc",
    "Mpp.C04_cma"
   ],
   "note": "For every PC and SP. Where PC or SP meets an end of memory the theorems say that it stays there and what is reported (p.past, p.pushed, p.popped; no error where there is room: P.past_room, P.pushed_room, P.popped_room)."
  },
  {
   "property": "C05",
   "status": "proved",
   "theorems": [
    "Mpp.C05_lfa",
    "Mpp.C05_sfa",
    "Mpp.C05_roundtrip"
   ],
   "note": "For every PC and SP. Where PC or SP meets an end of memory the theorems say that it stays there and what is reported (p.past, p.pushed, p.popped; no error where there is room: P.past_room, P.pushed_room, P.popped_room)."
  },
  {
   "property": "C06",
   "status": "proved",
   "theorems": [
    "Mpp.C06_lda",
    "Mpp.C06_sta",
    "Mpp.C06_ldax",
    "Mpp.C06_stax"
   ],
   "note": "For every PC and SP. Where PC or SP meets an end of memory the theorems say that it stays there and what is reported (p.past, p.pushed, p.popped; no error where there is room: P.past_room, P.pushed_room, P.popped_room)."
  },
  {
   "property": "C07",
   "status": "proved",
   "theorems": [
    "Mpp.C07_jmp",
    "Mpp.C07_beq",
    "Mpp.C07_bc"
   ],
   "note": "For every PC and SP. Where PC or SP meets an end of memory the theorems say that it stays there and what is reported (p.past, p.pushed, p.popped; no error where there is room: P.past_room, P.pushed_room, P.popped_room)."
  },
  {
   "property": "C08",
   "status": "proved",
   "theorems": [
    "Mpp.C08_inisp",
    "Mpp.C08_push",
    "Mpp.C08_pop"
   ],
   "note": "For every PC and SP. Where PC or SP meets an end of memory the theorems say that it stays there and what is reported (p.past, p.pushed, p.popped; no error where there is room: P.past_room, P.pushed_room, P.popped_room)."
  },
  {
   "property": "C09",
   "status": "proved",
   "theorems": [
    "Mpp.C09_call",
    "Mpp.C09_last",
    "Mpp.C09_ret",
    "Mpp.C09_return"
   ],
   "note": "For every PC and SP. Where PC or SP meets an end of memory the theorems say that it stays there and what is reported (p.past, p.pushed, p.popped; no error where there is room: P.past_room, P.pushed_room, P.popped_room). A CALL in the last cell stores PCH and PCL, which are then 0xFFFF unless the host has just set PC (C09_call, C09_last)."
  },
  {
   "property": "C10",
   "status": "proved",
   "theorems": [
    "Mpp.C10_iret"
   ],
   "note": "For every PC and SP. Where PC or SP meets an end of memory the theorems say that it stays there and what is reported (p.past, p.pushed, p.popped; no error where there is room: P.past_room, P.pushed_room, P.popped_room)."
  },
  {
   "property": "C11",
   "status": "proved",
   "theorems": [
    "Mpp.C11_finishes"
   ],
   "note": ""
  },
  {
   "property": "C12",
   "status": "proved",
   "theorems": [
    "Mpp.C12_undefined"
   ],
   "note": "The aliases are listed in the theorem."
  },
  {
   "property": "C13",
   "status": "proved",
   "theorems": [
    "Mpp.C13_states",
    "Mpp.C52_visited"
   ],
   "note": "C52_visited: each of the other 41 microstates does occur."
  },
  {
   "property": "C14",
   "status": "proved",
   "theorems": [
    "Mpp.C14_registers",
    "Mpp.C14_cells",
    "Mpp.C14_data_bus"
   ],
   "note": ""
  },
  {
   "property": "C15",
   "status": "proved",
   "theorems": [
    "Mpp.C15_no_ub",
    "Mpp.C15_needed",
    "Mpp.C15_needed_off"
   ],
   "note": "C15_needed and C15_needed_off show that the lifecycle conditions cannot be dropped."
  },
  {
   "property": "C16",
   "status": "proved",
   "theorems": [
    "Mpp.C16_lifo",
    "Mpp.C16_reverse"
   ],
   "note": ""
  },
  {
   "property": "C17",
   "status": "proved",
   "theorems": [
    "Mpp.C17_fetch",
    "Mpp.C17_push",
    "Mpp.C17_pop"
   ],
   "note": ""
  },
  {
   "property": "C18",
   "status": "proved",
   "theorems": [
    "Mpp.C18_stops",
    "Mpp.C18_only_at_fin",
    "Mpp.C18_program",
    "Mpp.C18_deterministic"
   ],
   "note": "C18_stops, C18_only_at_fin and C18_deterministic describe the loop; C18_program says the instructions before FIN act as the instruction set says."
  },
  {
   "property": "C19",
   "status": "proved",
   "theorems": [
    "Mpp.C19_restart"
   ],
   "note": ""
  },
  {
   "property": "C20",
   "status": "proved",
   "theorems": [
    "Mpp.C20_memory"
   ],
   "note": ""
  },
  {
   "property": "C21",
   "status": "proved",
   "theorems": [
    "Mpp.C21_rejected",
    "Mpp.C21_delivers"
   ],
   "note": ""
  },
  {
   "property": "C22",
   "status": "proved",
   "theorems": [
    "Mpp.C22_fresh_ids",
    "Mpp.C22_others",
    "Mpp.C22_stops"
   ],
   "note": ""
  },
  {
   "property": "C23",
   "status": "proved",
   "theorems": [
    "Mpp.C23_coherent",
    "Mpp.C23_same"
   ],
   "note": ""
  },
  {
   "property": "C24",
   "status": "proved",
   "theorems": [
    "Mpp.C24_roundtrip",
    "Mpp.C24_bits",
    "Mpp.C24_used",
    "Mpp.C24_back"
   ],
   "note": ""
  },
  {
   "property": "C25",
   "status": "proved",
   "theorems": [
    "Mpp.C25_append",
    "Mpp.C25_delete",
    "Mpp.C25_delete_absent"
   ],
   "note": ""
  },
  {
   "property": "C26",
   "status": "proved",
   "theorems": [
    "Mpp.C26_lookup",
    "Mpp.C26_getter"
   ],
   "note": ""
  },
  {
   "property": "C27",
   "status": "proved",
   "theorems": [
    "Mpp.C27_cycle",
    "Mpp.C27_loop"
   ],
   "note": ""
  },
  {
   "property": "C28",
   "status": "proved",
   "theorems": [
    "Mpp.C28_fresh"
   ],
   "note": ""
  },
  {
   "property": "C29",
   "status": "proved",
   "theorems": [
    "Mpp.C29_set",
    "Mpp.C29_bounds"
   ],
   "note": ""
  },
  {
   "property": "C30",
   "status": "proved",
   "theorems": [
    "Mpp.C30_visible",
    "Mpp.C30_all"
   ],
   "note": "C30_visible: all calls but the getters of raw bus contents; C30_all: all calls, when these getters agree too."
  },
  {
   "property": "C31",
   "status": "proved",
   "theorems": [
    "Mpp.C31_fetch",
    "Mpp.C31_kept",
    "Mpp.C31_init"
   ],
   "note": ""
  },
  {
   "property": "C32",
   "status": "proved",
   "theorems": [
    "Mpp.C32_cycle",
    "Mpp.C32_instruction"
   ],
   "note": ""
  },
  {
   "property": "C33",
   "status": "partial",
   "theorems": [
    "Mpp.C33_documented_partial",
    "Mpp.C33_or_wrong"
   ],
   "note": "False as stated: the documentation of OR with a register lists S12 where the machine visits S2 (C33_or_wrong). C33_documented_partial covers every other documented instruction."
  },
  {
   "property": "C34",
   "status": "proved",
   "theorems": [
    "Mpp.C34_init"
   ],
   "note": ""
  },
  {
   "property": "C35",
   "status": "proved",
   "theorems": [
    "Mpp.C35_alu",
    "Mpp.C35_machine"
   ],
   "note": ""
  },
  {
   "property": "C36",
   "status": "proved",
   "theorems": [
    "Mpp.Front.C36_line",
    "Mpp.Front.C36_text",
    "Mpp.Front.C36_byte_label"
   ],
   "note": "C36_byte_label is the witness for the exception in the statement."
  },
  {
   "property": "C37",
   "status": "proved",
   "theorems": [
    "Mpp.Front.C37_code",
    "Mpp.Front.C37_labels",
    "Mpp.Front.C37_accepts",
    "Mpp.Front.C37_unique",
    "Mpp.Front.C37_terminator"
   ],
   "note": "Texts are Plain: no line terminator other than the newline inside a statement; C37_terminator shows what happens otherwise."
  },
  {
   "property": "C38",
   "status": "proved",
   "theorems": [
    "Mpp.Front.C38_table",
    "Mpp.Front.C38_choice",
    "Mpp.Front.C38_ac"
   ],
   "note": ""
  },
  {
   "property": "C39",
   "status": "proved",
   "theorems": [
    "Mpp.Front.C39_statements",
    "Mpp.Front.C39_comment",
    "Mpp.Front.C39_blank_line"
   ],
   "note": ""
  },
  {
   "property": "C40",
   "status": "proved",
   "theorems": [
    "Mpp.Front.C40_rows",
    "Mpp.Front.C40_consecutive",
    "Mpp.Front.C40_saved"
   ],
   "note": ""
  },
  {
   "property": "C41",
   "status": "proved",
   "theorems": [
    "Mpp.Front.C41_save",
    "Mpp.Front.C41_range",
    "Mpp.Front.C41_program"
   ],
   "note": ""
  },
  {
   "property": "C42",
   "status": "proved",
   "theorems": [
    "Mpp.Front.C42_product"
   ],
   "note": ""
  },
  {
   "property": "C43",
   "status": "proved",
   "theorems": [
    "Mpp.Front.C43_count"
   ],
   "note": ""
  },
  {
   "property": "C44",
   "status": "proved",
   "theorems": [
    "Mpp.C44_contained",
    "Mpp.C44_fetch"
   ],
   "note": "C44_contained: all call histories without any precondition. C44_fetch: legal history, then arbitrary int values stored by the host, then one clock cycle."
  },
  {
   "property": "C45",
   "status": "proved",
   "theorems": [
    "Mpp.C45_mx4",
    "Mpp.C45_mx2",
    "Mpp.C45_mxdir",
    "Mpp.C45_machine"
   ],
   "note": ""
  },
  {
   "property": "C46",
   "status": "proved",
   "theorems": [
    "Mpp.Front.C46_total"
   ],
   "note": ""
  },
  {
   "property": "C47",
   "status": "proved",
   "theorems": [
    "Mpp.Front.C47_window",
    "Mpp.Front.C47_misaligned"
   ],
   "note": "C47_misaligned: the highlighted row need not begin at PC."
  },
  {
   "property": "C48",
   "status": "proved",
   "theorems": [
    "Mpp.Front.C48_search"
   ],
   "note": ""
  },
  {
   "property": "C49",
   "status": "proved",
   "theorems": [
    "Mpp.Front.C49_call"
   ],
   "note": ""
  },
  {
   "property": "C50",
   "status": "partial",
   "theorems": [
    "Mpp.Front.C50_operand_partial",
    "Mpp.Front.C50_relist_partial",
    "Mpp.Front.C50_ambiguous"
   ],
   "note": "False as stated: operand bytes are not zero-padded (C50_ambiguous). C50_operand_partial says exactly which operands read back; C50_relist_partial is the property for programs with such operands."
  },
  {
   "property": "C51",
   "status": "partial",
   "theorems": [
    "Mpp.C51_instruction_done",
    "Mpp.C51_instruction_resume",
    "Mpp.C51_instruction_ends",
    "Mpp.C51_program_done",
    "Mpp.C51_program_resume_partial",
    "Mpp.C51_program_resume_wrong",
    "Mpp.C51_presses"
   ],
   "note": "Resuming run-program is false when it was stopped between the fetch and the decoding of FIN (C51_program_resume_wrong); C51_program_resume_partial is the property for every other stop."
  },
  {
   "property": "C52",
   "status": "partial",
   "theorems": [
    "Mpp.C52_lines",
    "Mpp.C52_off",
    "Mpp.C52_on_address",
    "Mpp.C52_on_partial",
    "Mpp.C52_fetch_wrong",
    "Mpp.C52_alu_wrong",
    "Mpp.C52_bank",
    "Mpp.C52_acbus",
    "Mpp.C52_regbus",
    "Mpp.C52_membus",
    "Mpp.C52_le",
    "Mpp.C52_alu",
    "Mpp.C52_visited",
    "Mpp.Front.C52_named",
    "Mpp.Front.C52_line_names"
   ],
   "note": "False for AC, 2OP, H, L and RI in eight microstates: after a fetch the data bus shows the next byte (C52_fetch_wrong), after ADD, SUB, XOR and NOT it shows the operation applied again (C52_alu_wrong). C52_on_partial is the property for all other microstates. PC also changes without PCCAR when RET loads its halves."
  },
  {
   "property": "C53",
   "status": "partial",
   "theorems": [
    "Mpp.C53_text",
    "Mpp.C53_drawable",
    "Mpp.C53_next",
    "Mpp.C53_executed",
    "Mpp.C53_saved_wrong",
    "Mpp.C53_number_partial",
    "Mpp.C53_number_wrong"
   ],
   "note": "False in two places: S44 is numbered S43 (C53_number_wrong), and saving a program puts 'S0 executed' rows into the panel although nothing runs (C53_saved_wrong). C53_number_partial is the claim for all other microstates, C53_executed the claim while clock cycles run."
  },
  {
   "property": "C54",
   "status": "proved",
   "theorems": [
    "Mpp.Front.C54_shows",
    "Mpp.Front.C54_only",
    "Mpp.Front.C54_type",
    "Mpp.Front.C54_point",
    "Mpp.Front.C54_reject",
    "Mpp.Front.C54_back",
    "Mpp.Front.C54_base",
    "Mpp.Front.C54_bound",
    "Mpp.Front.C54_mark_wrong"
   ],
   "note": "Proved for numbers below 2^53 (JavaScript rounds greater ones; not modelled). The mark itself may be wrong: it stays when the number or the base changes afterwards (C54_mark_wrong). In base ten a fraction is accepted and dropped (C54_point)."
  },
  {
   "property": "C55",
   "status": "partial",
   "theorems": [
    "Mpp.Front.C55_update",
    "Mpp.Front.C55_search",
    "Mpp.Front.C55_fresh",
    "Mpp.Front.C55_written",
    "Mpp.Front.C55_drawn",
    "Mpp.Front.C55_alias_wrong",
    "Mpp.Front.C60_writing_wrong"
   ],
   "note": "Searching is proved for offsets below 2^31 - 1. False beyond: the argument is taken modulo 2^32, so searching for 2^32 shows cells 0 and 1 under wrong offsets (C55_alias_wrong). Which of the two lines, reading or writing, is chosen is proved; the text of the line for writing does not exist (C60_writing_wrong)."
  },
  {
   "property": "C56",
   "status": "partial",
   "theorems": [
    "Mpp.Front.C56_errors",
    "Mpp.Front.C56_labels",
    "Mpp.Front.C56_accepted_unique",
    "Mpp.Front.C56_place",
    "Mpp.Front.C56_notes",
    "Mpp.Front.C56_indent_wrong",
    "Mpp.Front.C56_lost"
   ],
   "note": "Rows, labels, addresses and bytes are proved in full. That a mark covers the marked text is false for indented lines, whose marks are shifted to the left (C56_indent_wrong), and proved for lines without indentation (C56_place)."
  },
  {
   "property": "C57",
   "status": "partial",
   "theorems": [
    "Mpp.Front.C57_note",
    "Mpp.Front.C57_code",
    "Mpp.Front.C57_kept",
    "Mpp.Front.C57_reload",
    "Mpp.Front.C57_missing_wrong",
    "Mpp.Front.C57_twice"
   ],
   "note": "False that the program always ends with FIN: the test looks at the last letters only, so a comment or a label operand ending in FIN suppresses it (C57_missing_wrong). False that edits survive a reload with code in the address (C57_reload); without it they do (C57_kept)."
  },
  {
   "property": "C58",
   "status": "partial",
   "theorems": [
    "Mpp.Front.C58_immediate",
    "Mpp.Front.C58_box",
    "Mpp.Front.C58_kept",
    "Mpp.Front.C58_set",
    "Mpp.Front.C58_tour",
    "Mpp.Front.C58_empty_wrong"
   ],
   "note": "All proved but for one case where it is false: an emptied box stores NaN, which is read back as the default 500 (C58_empty_wrong, C58_box). Fractions of a millisecond are not modelled."
  },
  {
   "property": "C59",
   "status": "partial",
   "theorems": [
    "Mpp.Front.C59_one",
    "Mpp.Front.C59_defined",
    "Mpp.Front.C59_presses",
    "Mpp.Front.C59_fresh",
    "Mpp.Front.C59_set_pc",
    "Mpp.Front.C59_stop_enabled",
    "Mpp.Front.C59_stop_partial",
    "Mpp.Front.C59_stop_lost",
    "Mpp.Front.C59_stop_wrong"
   ],
   "note": "Proved but for two cases of the stop button where it is false: pressed during the first 100 ms of a run without updates it is lost (C59_stop_lost); and setting the cycle time to 0 during a run with pauses disables it, so that an endless program cannot be stopped (C59_stop_wrong). C59_stop_enabled says exactly when it is enabled. React's updates between events and the order of promises are assumptions of the model."
  },
  {
   "property": "C60",
   "status": "partial",
   "theorems": [
    "Mpp.Front.C60_same",
    "Mpp.Front.C60_own",
    "Mpp.Front.C60_used_partial",
    "Mpp.Front.C60_writing_wrong",
    "Mpp.Front.C60_shown_partial",
    "Mpp.Front.C60_language",
    "Mpp.Front.C60_status_wrong",
    "Mpp.Front.C60_stored",
    "Mpp.Front.C60_kept",
    "Mpp.Front.C60_offered_wrong",
    "Mpp.Front.C60_offers"
   ],
   "note": "Three parts are false and refuted with witnesses: the memory box asks for a misspelt key (C60_writing_wrong); a component whose key changes shows its first text after a change of language, which happens to the status line and the memory box (C60_status_wrong); the language of the browser need not be one of those offered (C60_offered_wrong). The rest is proved."
  },
  {
   "property": "C61",
   "status": "partial",
   "theorems": [
    "Mpp.C61_total",
    "Mpp.C61_values",
    "Mpp.C61_kept",
    "Mpp.C61_changed",
    "Mpp.C61_arrows",
    "Mpp.C61_flags_partial",
    "Mpp.C61_start",
    "Mpp.C61_highlight_partial",
    "Mpp.C61_release_wrong",
    "Mpp.C61_memory_wrong",
    "Mpp.C61_flags_wrong",
    "Mpp.C61_highlight_wrong"
   ],
   "note": "Values, highlights of the boxes with numbers, labels, load arrows and the state before the first update are proved. False of the code and refuted: arrows of release lines never move (C61_release_wrong), the arrow to the memory always moves (C61_memory_wrong), a changed flag may not be highlighted, depending on when React runs the updating functions (C61_flags_wrong), PC is highlighted without a moving arrow in RET (C61_highlight_wrong)."
  },
  {
   "property": "C62",
   "status": "partial",
   "theorems": [
    "Mpp.Front.C62_serves",
    "Mpp.Front.C62_answers",
    "Mpp.Front.C62_fresh",
    "Mpp.Front.C62_kept_partial",
    "Mpp.Front.C62_kept_wrong",
    "Mpp.Front.C62_table",
    "Mpp.Front.C62_modelled"
   ],
   "note": "Proved: no call of the page reaches a missing or uninitialised core, every such call answers, a core that becomes ready is fresh, the wrapped names match the exported C functions. What is stored is kept while no further connectBackend is waiting (C62_kept_partial); with two calls waiting (React StrictMode) the second core replaces the first and the contents are lost (C62_kept_wrong)."
  },
  {
   "property": "C63",
   "status": "partial",
   "theorems": [
    "Mpp.Front.C63_factorial",
    "Mpp.Front.C63_zero_wrong"
   ],
   "note": "Proved for n >= 1. For n = 0 the Java definition on the same page gives 1 but the program gives 0 (C63_zero_wrong)."
  },
  {
   "property": "C64",
   "status": "proved",
   "theorems": [
    "Mpp.Front.C64_endless",
    "Mpp.Front.C64_decrement"
   ],
   "note": ""
  },
  {
   "property": "C65",
   "status": "partial",
   "theorems": [
    "Mpp.Front.C65_solved_partial",
    "Mpp.Front.C65_pop_wrong",
    "Mpp.Front.C65_push_wrong"
   ],
   "note": "False of two: POP reads 0x8563 instead of 0x8523 (C65_pop_wrong), PUSH does not set SP and fails where SP = 0, as after switching on (C65_push_wrong). C65_solved_partial: all others, and PUSH with SP >= 11."
  },
  {
   "property": "C66",
   "status": "proved",
   "theorems": [
    "Mpp.Front.C66_product"
   ],
   "note": ""
  },
  {
   "property": "C67",
   "status": "partial",
   "theorems": [
    "Mpp.Front.C67_update",
    "Mpp.Front.C67_fresh",
    "Mpp.Front.C67_padding",
    "Mpp.Front.C67_program_partial",
    "Mpp.Front.C67_at_zero_partial",
    "Mpp.Front.C67_inside",
    "Mpp.Front.C67_wrong",
    "Mpp.Front.C67_drawn"
   ],
   "note": "The highlighted row always has the cell PC (C67_update), but it is the instruction at PC only if the list begins at an instruction (C67_program_partial; C67_at_zero_partial: program at 0, PC not beyond the number in the box). Otherwise false: five times LDA 7474 with PC at the last one and the box untouched highlights JMP 7074 (C67_inside, C67_wrong)."
  },
  {
   "property": "C68",
   "status": "proved",
   "theorems": [
    "Mpp.Front.C68_link",
    "Mpp.Front.C68_opened"
   ],
   "note": "What the browser does (URL parser, URLSearchParams, UTF-8) is modelled after the URL and Encoding standards."
  },
  {
   "property": "C69",
   "status": "partial",
   "theorems": [
    "Mpp.Front.C69_file_partial",
    "Mpp.Front.C69_wrong"
   ],
   "note": "Holds unless the text begins with the character U+FEFF (C69_file_partial), which is taken for a byte order mark and lost (C69_wrong). Choosing the file is not modelled."
  },
  {
   "property": "C70",
   "status": "proved",
   "theorems": [
    "Mpp.C70_cycle",
    "Mpp.C70_calls",
    "Mpp.C70_kinds",
    "Mpp.C70_printed",
    "Mpp.C70_told"
   ],
   "note": "In-range histories (as C15); a cell outside 0..255 written by the host can also overflow RI (C44). The log_debug lines of a DEBUG build are not modelled."
  },
  {
   "property": "C71",
   "status": "partial",
   "theorems": [
    "Mpp.C71_calls",
    "Mpp.C71_delivered_partial",
    "Mpp.C71_lost_wrong",
    "Mpp.C71_fatal_wrong",
    "Mpp.C71_fatal_debug"
   ],
   "note": "Holds for INFO and ERROR, and with DEBUG for all levels (C71_delivered_partial). Without DEBUG messages of the other levels are lost, also WARN and FATAL (C71_lost_wrong): a fatal error ends the program without a message (C71_fatal_wrong). Callbacks that call the logger are not modelled."
  },
  {
   "property": "C72",
   "status": "partial",
   "theorems": [
    "Mpp.C72_digits_partial",
    "Mpp.C72_digits_wrong",
    "Mpp.C72_random",
    "Mpp.C72_random_wrong",
    "Mpp.C72_string_partial",
    "Mpp.C72_string_wrong",
    "Mpp.C72_bit"
   ],
   "note": "get_bit holds in full. get_num_digits(0) is 0 (C72_digits_wrong). random_int gives the max numbers from min on: with min above 1 more than max, with min 0 never max (C72_random_wrong). num_to_str is undefined for negative numbers and INT_MAX (C72_string_wrong). log10 is taken to be exact."
  },
  {
   "property": "C73",
   "status": "proved",
   "theorems": [
    "Mpp.C73_ends",
    "Mpp.C73_apart",
    "Mpp.C73_inputs",
    "Mpp.C73_registers"
   ],
   "note": "React Flow is not modelled. A register box whose data ask for more than two handles draws none (part of C73_registers)."
  },
  {
   "property": "C74",
   "status": "partial",
   "theorems": [
    "Mpp.Front.C74_once_partial",
    "Mpp.Front.C74_complete_partial",
    "Mpp.Front.C74_ends",
    "Mpp.Front.C74_history",
    "Mpp.Front.C74_error",
    "Mpp.Front.C74_twice_wrong",
    "Mpp.Front.C74_spinner_wrong",
    "Mpp.Front.C74_missing_wrong",
    "Mpp.Front.C74_error_wrong"
   ],
   "note": "The end of the loading, the error and the tab of the commits hold for all sessions. The list of the version is right if the user clicks only when no request for it is under way (C74_once_partial) and none fails (C74_complete_partial). Otherwise commits are shown twice (C74_twice_wrong), are missing for good (C74_missing_wrong: getCommits empties the list of the other tab), the loading mark goes too early (C74_spinner_wrong), or an old error stays (C74_error_wrong)."
  },
  {
   "property": "C75",
   "status": "proved",
   "theorems": [
    "Mpp.Front.C75_saved",
    "Mpp.Front.C75_opened",
    "Mpp.Front.C75_goes_on"
   ],
   "note": "Front/SourceRun gives the meaning of the statements, independently of Isa and of the machine code. Obeys is the conclusion of the first two; C75_goes_on says that the meaning is defined wherever the statement promises it."
  },
  {
   "property": "C76",
   "status": "proved",
   "theorems": [
    "Mpp.Front.C76_enabled",
    "Mpp.Front.C76_program",
    "Mpp.Front.C76_rows",
    "Mpp.Front.C76_saved"
   ],
   "note": "C76_enabled is about every text; C76_program states it in terms of the language. The input for the offset is disabled in the page; with it, saving could be enabled for old code (see the findings)."
  },
  {
   "property": "C77",
   "status": "proved",
   "theorems": [
    "Mpp.Front.C77_run",
    "Mpp.Front.C77_ends",
    "Mpp.Front.C77_loaded",
    "Mpp.Front.C77_source"
   ],
   "note": "The run is left alone: not stopped, nothing saved and PC not set meanwhile. C77_source is the whole; the meaning of the statements is that of C75."
  },
  {
   "property": "C78",
   "status": "proved",
   "theorems": [
    "Mpp.C78_call",
    "Mpp.C78_history",
    "Mpp.C78_leak"
   ],
   "note": "C78_call is about every state, reachable or not. The memory array (one block per init, freed by shutdown) is not counted: the model has the array in use only."
  },
  {
   "property": "C79",
   "status": "proved",
   "theorems": [
    "Mpp.Front.C79_played",
    "Mpp.Front.C79_endless",
    "Mpp.Front.C79_factorial",
    "Mpp.Front.C79_product",
    "Mpp.Front.C79_solution",
    "Mpp.Front.C79_malicious",
    "Mpp.Front.C79_samples"
   ],
   "note": "POP and PUSH are as in C65 (POP is left out, PUSH needs SP >= 11). The run is left alone: not stopped, nothing saved and PC not set meanwhile."
  },
  {
   "property": "C80",
   "status": "proved",
   "theorems": [
    "Mpp.Front.C80_suggested",
    "Mpp.Front.C80_silent"
   ],
   "note": "What Ace's popup does with the list afterwards is not modelled."
  },
  {
   "property": "C81",
   "status": "proved",
   "theorems": [
    "Mpp.Front.C81_statement",
    "Mpp.Front.C81_comment",
    "Mpp.Front.C81_swallowed"
   ],
   "note": "Ace stops colouring after 2000 matches in a line; the model goes on."
  },
  {
   "property": "C82",
   "status": "proved",
   "theorems": [
    "Mpp.Front.C82_sections",
    "Mpp.Front.C82_pages",
    "Mpp.Front.C82_file",
    "Mpp.Front.C82_language",
    "Mpp.Front.C82_address",
    "Mpp.Front.C82_slash"
   ],
   "note": "The pages and the items of the side bar are the whole tables of the source, decided."
  },
  {
   "property": "C83",
   "status": "proved",
   "theorems": [
    "Mpp.Front.C83_theme",
    "Mpp.Front.C83_other"
   ],
   "note": "The storage is written by this page only; a change in another tab is an opening of the page."
  },
  {
   "property": "C84",
   "status": "proved",
   "theorems": [
    "Mpp.Front.C84_pages",
    "Mpp.Front.C84_line",
    "Mpp.Front.C84_inisp",
    "Mpp.Front.C84_push",
    "Mpp.Front.C84_moves",
    "Mpp.Front.C84_loop"
   ],
   "note": "The list of lines is transcribed from the .mdx files. C84_push needs SP of at least 4 and C84_loop SP from 18 to FFFE, so that the stack does not meet the program."
  },
  {
   "property": "C85",
   "status": "partial",
   "theorems": [
    "Mpp.Front.microSteps_text",
    "Mpp.Front.C85_cycle_partial",
    "Mpp.Front.C85_interrupt",
    "Mpp.Front.C85_S43_wrong",
    "Mpp.Front.C85_S44"
   ],
   "note": "False of S43: the file says RD <- 2OP, which is what S44 does (C85_S44), not in the file; S43 is SP+1 (C85_S43_wrong). All other lines are proved. PC+1, SP+1 and SP-1 beyond the ends of memory have no value in the reading; see C17."
  },
  {
   "property": "C86",
   "status": "proved",
   "theorems": [
    "Mpp.Front.C86_grows",
    "Mpp.Front.C86_overwrites"
   ],
   "note": "The function of the page, reduced to its call. With C64: the malicious function runs in constant space."
  },
  {
   "property": "C87",
   "status": "proved",
   "theorems": [
    "Mpp.C87_internal",
    "Mpp.C87_halves"
   ],
   "note": "Relation between two runs: which of the four may be different is tracked along the path of every opcode."
  },
  {
   "property": "C88",
   "status": "proved",
   "theorems": [
    "Mpp.C88_periodic",
    "Mpp.C88_never_ends",
    "Mpp.C88_ends_or_repeats"
   ],
   "note": "Pigeonhole over the finitely many states of the typed machine, and induction; the log of errors, which only grows, is not part of what the machine looks like."
  },
  {
   "property": "C89",
   "status": "proved",
   "theorems": [
    "Mpp.Front.C89_random",
    "Mpp.Front.C89_data_bus"
   ],
   "note": "Relational induction over the history on two machines that differ in unknown cells only; every microstate is shown to read memory only where the documentation's list says. C89_data_bus shows by a concrete history why the data bus is left out."
  },
  {
   "property": "C90",
   "status": "partial",
   "theorems": [
    "Mpp.Front.C90_saved_partial",
    "Mpp.Front.C90_counted",
    "Mpp.Front.C90_label",
    "Mpp.Front.C90_goes_on"
   ],
   "note": "The full statement is false of the code: C90_label proves its negation for every program that begins with a jump to a label and every offset but 0. C90_saved_partial proves it for programs without label operands, and C90_counted says exactly what programs with labels do. C90_goes_on: the description of the statements gives up only where it says. In the page the field for the offset is disabled; its handler is modelled all the same."
  },
  {
   "property": "C91",
   "status": "proved",
   "theorems": [
    "Mpp.Front.C91_instruction",
    "Mpp.Front.C91_program",
    "Mpp.Front.C91_product",
    "Mpp.Front.C91_count"
   ],
   "note": "The cycles are those counted by RunInstruction and RunProgram (runs of run_clock_cycle). The table clockCycles is written from the documentation; FIN (no table in its page) and IRET (no page) are from the code."
  },
  {
   "property": "C92",
   "status": "proved",
   "theorems": [
    "Mpp.Front.C92_text",
    "Mpp.Front.C92_bytes",
    "Mpp.Front.C92_registers",
    "Mpp.Front.C92_state"
   ],
   "note": "Labels are taken to consist of word characters. The errors reported so far are kept by the model as a list and cannot be undone. The page itself sets memory only by saving texts; C92_state uses set_memory_value and set_register_pc, which the core exports."
  },
  {
   "property": "C93",
   "status": "proved",
   "theorems": [
    "Mpp.Front.C93_program",
    "Mpp.Front.C93_twice"
   ],
   "note": "Lines as in C81, so a comment right behind a label operand is left out, and so are labels with blanks in them. What highlight.js marks inside a comment is not modelled."
  },
  {
   "property": "C94",
   "status": "partial",
   "theorems": [
    "Mpp.Front.C94_border",
    "Mpp.Front.C94_side",
    "Mpp.Front.C94_params",
    "Mpp.Front.C94_line_partial",
    "Mpp.Front.C94_missed",
    "Mpp.Front.C94_none"
   ],
   "note": "False as stated: the function takes the size of the first box for that of the second, so the point is on the border but on the line between the centres only when the sizes differ in the direction of the boxes (C94_line_partial, an equivalence; C94_missed). The side is right up to less than 2 pixels, because of the rounding and the tolerance of 1 in the code. Numbers are rational: the rounding of floating point is left out. The page does not use these components."
  },
  {
   "property": "C95",
   "status": "proved",
   "theorems": [
    "Mpp.C95_flat",
    "Mpp.C95_safe",
    "Mpp.C95_room",
    "Mpp.C95_two",
    "Mpp.C95_endless",
    "Mpp.C95_storm",
    "Mpp.C95_reads",
    "Mpp.C95_page"
   ],
   "note": "Proved because the callback is the last thing that each of the three functions does. Discharges the assumption of Host.lean that the callback does not call back: for callbacks that only read nothing changes (C95_reads), for others the theorems about lists of calls apply to the list of calls in the order in which they begin (C95_flat). The stack is unbounded memory in the model; running out of it is the outcome `deep`. A callback that throws is not modelled."
  },
  {
   "property": "C96",
   "status": "proved",
   "theorems": [
    "Mpp.C96_enough",
    "Mpp.C96_lost",
    "Mpp.C96_deaf",
    "Mpp.C96_room",
    "Mpp.C96_silent"
   ],
   "note": "A property of what the code does; that init does not report the loss is recorded as a disagreement. Blocks are counted, not measured: the size of a block plays no part. Only init is modelled under refusal; int_to_str (utils.c:33), which also allocates, is not called by it."
  },
  {
   "property": "C97",
   "status": "proved",
   "theorems": [
    "Mpp.C97_source",
    "Mpp.C97_one",
    "Mpp.C97_bit",
    "Mpp.C97_open",
    "Mpp.C97_fed",
    "Mpp.C97_still"
   ],
   "note": "A turn of a component is a point of the run of run_cu at which its function is called; what it publishes there is taken from the message trace of C23. Publishing more than once in a cycle is allowed, and happens."
  },
  {
   "property": "C98",
   "status": "partial",
   "theorems": [
    "Mpp.C98_alu",
    "Mpp.C98_alu2",
    "Mpp.C98_and_wrong",
    "Mpp.C98_addsub",
    "Mpp.C98_acumm",
    "Mpp.C98_acumm2",
    "Mpp.C98_middleware_partial",
    "Mpp.C98_rm_wrong",
    "Mpp.C98_watcher",
    "Mpp.C98_get"
   ],
   "note": "False in two places. The last assertion of test_run_alu_and wants FZ = 0 for 0 AND 1 (C98_and_wrong); main does not call this test. Removing a middleware always writes one element past the array (C98_rm_wrong); C98_middleware_partial is the part about adding. The steps are run on a machine after init, where all components are subscribed; the tests initialise one component. The other unit tests are covered by C21, C22, C24, C25, C27 and C72."
  },
  {
   "property": "C99",
   "status": "proved",
   "theorems": [
    "Mpp.C99_code",
    "Mpp.C99_enough",
    "Mpp.C99_history",
    "Mpp.C99_rounds",
    "Mpp.C99_once_wrong",
    "Mpp.C99_order_wrong",
    "Mpp.C99_short"
   ],
   "note": "C99_once_wrong and C99_order_wrong describe what goes wrong with fewer rounds or another order, for all machines about to run LFA and MOV."
  },
  {
   "property": "C100",
   "status": "proved",
   "theorems": [
    "Mpp.C100_bump",
    "Mpp.C100_history",
    "Mpp.C100_apart",
    "Mpp.C100_reused",
    "Mpp.C100_same_wrong"
   ],
   "note": "C100_reused: an allocator that gives addresses again after a shutdown is among those covered. C100_same_wrong: an allocator that gives an address in use is not, rightly."
  },
  {
   "property": "C101",
   "status": "proved",
   "theorems": [
    "Mpp.Front.C101_time",
    "Mpp.Front.C101_turns",
    "Mpp.Front.C101_slow",
    "Mpp.Front.C101_question",
    "Mpp.Front.C101_switch"
   ],
   "note": "Two successive readings of the clock (lines 181 and 182) are taken to be equal."
  },
  {
   "property": "C102",
   "status": "partial",
   "theorems": [
    "Mpp.Front.C102_switch_partial",
    "Mpp.Front.C102_click",
    "Mpp.Front.C102_next_wrong",
    "Mpp.Front.C102_open_wrong"
   ],
   "note": "False of the code: the settings read the stored value before the page resets it. The switch is on during the first visit only, until it is clicked, and that click closes the tour."
  },
  {
   "property": "C103",
   "status": "proved",
   "theorems": [
    "Mpp.Front.C103_same",
    "Mpp.Front.C103_spelling",
    "Mpp.Front.C103_rename",
    "Mpp.Front.C103_unused",
    "Mpp.Front.C103_number",
    "Mpp.Front.C103_join",
    "Mpp.Front.C103_shared_wrong"
   ],
   "note": "C103_shared_wrong: the condition that the second text uses no label of the first is needed."
  },
  {
   "property": "C104",
   "status": "proved",
   "theorems": [
    "Mpp.Front.C104_shows",
    "Mpp.Front.C104_lines",
    "Mpp.Front.C104_open",
    "Mpp.Front.C104_run",
    "Mpp.Front.C104_variables",
    "Mpp.Front.C104_labels",
    "Mpp.Front.C104_address",
    "Mpp.Front.C104_address_wrong"
   ],
   "note": "C104_address_wrong: without the assumption of one address per name the table would not show them all."
  },
  {
   "property": "C105",
   "status": "proved",
   "theorems": [
    "Mpp.Front.C105_spared",
    "Mpp.Front.C105_plain",
    "Mpp.Front.C105_conditions_wrong"
   ],
   "note": "C105_conditions_wrong: the FIN or JMP at the end and the condition on STA are needed."
  },
  {
   "property": "C106",
   "status": "proved",
   "theorems": [
    "Mpp.Front.C106_depth",
    "Mpp.Front.C106_depth_wrong",
    "Mpp.Front.C106_calls",
    "Mpp.Front.C106_returns",
    "Mpp.Front.C106_calls_wrong"
   ],
   "note": "C106_depth_wrong, C106_calls_wrong: without the depths and the bound programs leave the memory or write over themselves."
  },
  {
   "property": "C107",
   "status": "proved",
   "theorems": [
    "Mpp.Front.C107_ranked",
    "Mpp.Front.C107_forward",
    "Mpp.Front.C107_costs",
    "Mpp.Front.C107_counting",
    "Mpp.Front.C107_ends_wrong"
   ],
   "note": "C107_counting is an instance of C107_ranked: a loop that ends on every machine with AC 0."
  },
  {
   "property": "C108",
   "status": "proved",
   "theorems": [
    "Mpp.Front.C108_live",
    "Mpp.Front.C108_double",
    "Mpp.Front.C108_time_wrong"
   ],
   "note": "C108_double is an instance of C108_live. LDAX, POP, RET and IRET are taken to read all of memory."
  }
 ]
}
