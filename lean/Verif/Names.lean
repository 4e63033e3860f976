import Verif.Word
/-!
# Names: topics, bus variables, registers, error messages
-/
namespace Mpp

/-- `pubsub.h:13-60` (`PubSubTopic`). `NONE_PUBSUB_TOPIC` is never used and is left out. -/
inductive Topic
  | data | dir1 | dir2
  | pcOut | spOut | hlOut | fffcOut
  | acummOut | op2Out
  | aluFc | aluFz
  | selreg
  | mxfld7 | mxfld0
  | flagsOut
  | riOut
  | joiner
  | q5 | q4 | q3 | q2 | q1 | q0
  | d0 | d1 | d2 | d3 | d4 | d5
  | jnr1 | jnr2 | jnr3 | jnr4
  | control
  deriving DecidableEq, Repr

/-- The `static Bus_t *` variables of all components and of the linker, each with its
subscription variable. The comment names the file and variable. -/
inductive Slot
  | memData | memDir | memControl                     -- components/mem.c:25-31
  | mxdirPc | mxdirSp | mxdirHl | mxdirFffc | mxdirControl  -- components/mxdir.c:21-31
  | addsubDir | addsubControl                         -- components/addsub.c:19-23
  | spDir | spControl                                 -- components/sp.c:27-31
  | pcDir | pcData | pcControl                        -- components/pc.c:33-39
  | hlData | hlControl                                -- components/hl.c:31-35
  | aluAcumm | aluOp2 | aluControl                    -- components/alu.c:24-30
  | acummData | acummControl                          -- components/acumm.c:28-31
  | op2Data | op2Control                              -- components/op2.c:21-25
  | mxregJnr1 | mxregJnr2 | mxregControl              -- components/mxreg.c:22-28
  | gregData | gregSelreg | gregControl               -- components/greg.c:33-39
  | mxfldxData | mxfldxControl                        -- components/controllers/mxfldx.c:20-24
  | mxfld7Alufc                                       -- components/mxfld7.c:24-25
  | mxfld0Alufz                                       -- components/mxfld0.c:22-23
  | flagsMx7 | flagsMx0 | flagsControl                -- components/flags.c:29-35
  | flagsintaFlags | flagsintaControl                 -- components/controllers/flagsinta.c:23-27
  | cuData | cuFlags | cuControl                      -- components/cu/cu.c:50-55
  | seqJnrRi | seqJnrFlags                            -- components/cu/seq_fgs_jnr.c:20-24
  | mxregJnrRi                                        -- components/cu/mxreg_jnr.c:14-16
  | seqJoiner | seqQ5 | seqQ4 | seqQ3 | seqQ2 | seqQ1 | seqQ0   -- components/cu/seq.c:129-142
  | ffD5 | ffD4 | ffD3 | ffD2 | ffD1 | ffD0           -- components/cu/dxflipflop.c:17-28
  | romQ5 | romQ4 | romQ3 | romQ2 | romQ1 | romQ0     -- components/cu/rom.c:26-38
  | linkMemDir                                        -- linker/mem.c:22-23
  | linkQ5 | linkQ4 | linkQ3 | linkQ2 | linkQ1 | linkQ0         -- linker/cu.c:23-40
  | linkD5 | linkD4 | linkD3 | linkD2 | linkD1 | linkD0         -- linker/cu.c:29-46
  | linkControl | linkData                            -- linker/bus.c:10-14
  deriving DecidableEq, Repr

/-- The topic each bus variable is subscribed to by the `init_*` function of its file.
(The `subscribe_to` calls themselves are modelled in `Verif.Lifecycle`, with the topic as
an argument; this table is what they are checked against.) -/
def Slot.topic : Slot → Topic
  | memData => .data | memDir => .dir2 | memControl => .control
  | mxdirPc => .pcOut | mxdirSp => .spOut | mxdirHl => .hlOut | mxdirFffc => .fffcOut
  | mxdirControl => .control
  | addsubDir => .dir2 | addsubControl => .control
  | spDir => .dir1 | spControl => .control
  | pcDir => .dir1 | pcData => .data | pcControl => .control
  | hlData => .data | hlControl => .control
  | aluAcumm => .acummOut | aluOp2 => .op2Out | aluControl => .control
  | acummData => .data | acummControl => .control
  | op2Data => .data | op2Control => .control
  | mxregJnr1 => .jnr1 | mxregJnr2 => .jnr2 | mxregControl => .control
  | gregData => .data | gregSelreg => .selreg | gregControl => .control
  | mxfldxData => .data | mxfldxControl => .control
  | mxfld7Alufc => .aluFc
  | mxfld0Alufz => .aluFz
  | flagsMx7 => .mxfld7 | flagsMx0 => .mxfld0 | flagsControl => .control
  | flagsintaFlags => .flagsOut | flagsintaControl => .control
  | cuData => .data | cuFlags => .flagsOut | cuControl => .control
  | seqJnrRi => .riOut | seqJnrFlags => .flagsOut
  | mxregJnrRi => .riOut
  | seqJoiner => .joiner
  | seqQ5 => .q5 | seqQ4 => .q4 | seqQ3 => .q3 | seqQ2 => .q2 | seqQ1 => .q1 | seqQ0 => .q0
  | ffD5 => .d5 | ffD4 => .d4 | ffD3 => .d3 | ffD2 => .d2 | ffD1 => .d1 | ffD0 => .d0
  | romQ5 => .q5 | romQ4 => .q4 | romQ3 => .q3 | romQ2 => .q2 | romQ1 => .q1 | romQ0 => .q0
  | linkMemDir => .dir2
  | linkQ5 => .q5 | linkQ4 => .q4 | linkQ3 => .q3 | linkQ2 => .q2 | linkQ1 => .q1 | linkQ0 => .q0
  | linkD5 => .d5 | linkD4 => .d4 | linkD3 => .d3 | linkD2 => .d2 | linkD1 => .d1 | linkD0 => .d0
  | linkControl => .control | linkData => .data

/-- The `Register` variables: `acumm_reg`, `FC_reg`, `FZ_reg`, `B_reg`, `C_reg`, `D_reg`, `E_reg`,
`h_reg`, `l_reg`, `op2_reg`, `pch_reg`, `pcl_reg`, `pc_reg`, `sp_reg`, `RI_reg`. -/
inductive Reg
  | ac | fc | fz | b | c | d | e | h | l | op2 | pch | pcl | pc | sp | ri
  deriving DecidableEq, Repr

/-- `WatcherType` (`watcher.h:15-31`). -/
inductive WType
  | acum | fc | fz | b | c | d | e | h | l | op2 | pch | pcl | pc | sp | ri
  deriving DecidableEq, Repr

/-- The `RegisterWatcher` variables (`acumm.c:26`, `flags.c:26-27`, `greg.c:28-31`, `hl.c:28-29`,
`op2.c:29`, `pc.c:29-31`, `sp.c:25`, `cu/cu.c:48`). -/
inductive Watcher
  | ac | fc | fz | b | c | d | e | h | l | op2 | pch | pcl | pc | sp | ri
  deriving DecidableEq, Repr

/-- Field `reg` of the watcher variables (same lines). -/
def Watcher.reg : Watcher → Reg
  | ac => .ac | fc => .fc | fz => .fz | b => .b | c => .c | d => .d | e => .e | h => .h | l => .l
  | op2 => .op2 | pch => .pch | pcl => .pcl | pc => .pc | sp => .sp | ri => .ri

/-- Field `type` of the watcher variables (same lines). -/
def Watcher.type : Watcher → WType
  | ac => .acum | fc => .fc | fz => .fz | b => .b | c => .c | d => .d | e => .e | h => .h | l => .l
  | op2 => .op2 | pch => .pch | pcl => .pcl | pc => .pc | sp => .sp | ri => .ri

/-- The messages passed to `throw_error` with `NOTICE_ERROR` by the components. -/
inductive Err
  | acummOverflow   -- acumm.c:60
  | gregSelect      -- greg.c:101
  | gregOverflow    -- greg.c:117
  | memGet          -- mem.c:126
  | memSet          -- mem.c:141
  | mxdir           -- mxdir.c:77
  | pchOverflow     -- pc.c:94
  | pclOverflow     -- pc.c:107
  | pcOverflow      -- pc.c:137
  | spOverflow      -- sp.c:63
  | riOverflow      -- cu.c:158
  deriving DecidableEq, Repr

/-- Update a function at one point (assignment to one of a family of variables). -/
def upd {α β} [DecidableEq α] (f : α → β) (a : α) (b : β) : α → β := fun x => if x = a then b else f x

@[simp] theorem upd_same {α β} [DecidableEq α] (f : α → β) (a : α) (b : β) : upd f a b a = b := by
  simp [upd]

theorem upd_apply {α β} [DecidableEq α] (f : α → β) (a : α) (b : β) (x : α) :
    upd f a b x = if x = a then b else f x := rfl

@[simp] theorem upd_ne {α β} [DecidableEq α] (f : α → β) {a x : α} (b : β) (h : x ≠ a) :
    upd f a b x = f x := by
  simp [upd, h]

end Mpp
