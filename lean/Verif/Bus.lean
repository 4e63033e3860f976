import Verif.Micro
/-!
# What is on the buses after a clock cycle

The buses are evaluated again after the registers have been loaded. So after a fetch the data bus
holds the byte after the fetched one, and after an addition it holds the sum plus the second operand.
-/
namespace Mpp

namespace V

/-- What is on the data bus after microstate `S k`, `old` having been there before. The
specification of the raw bus values; `rtl` is the specification of the registers. -/
def dataAfter (k : Nat) (v : V) (old : BitVec 8) : BitVec 8 :=
  match k with
  | 0 | 15 | 16 | 17 => v.mem (v.rtl k).pc
  | 2 => v.r v.lowSel
  | 3 | 4 | 19 | 39 | 44 => v.op2
  | 5 => (v.rtl 5).ac + v.op2
  | 6 => (v.rtl 6).ac - v.op2
  | 8 | 13 => v.op2 + 1
  | 9 => v.ac &&& v.op2
  | 10 => v.ac ||| v.op2
  | 11 => (v.rtl 11).ac ^^^ v.op2
  | 12 | 24 | 36 => v.ac
  | 14 => ~~~(v.rtl 14).ac
  | 18 => v.mem v.hl
  | 21 => v.d
  | 22 => v.e
  | 23 | 27 => flagByte v.fc v.fz
  | 28 => v.pch
  | 29 => v.pcl
  | 32 | 33 | 34 | 37 => v.mem v.sp
  | _ => old

/-- What is on the address bus after microstate `S k`. -/
def dirAfter (k : Nat) (v : V) : BitVec 16 :=
  match k with
  | 18 | 19 | 20 | 38 => v.hl
  | 30 => 0xFFFC
  | 26 | 27 | 28 | 29 | 31 | 32 | 33 | 34 | 36 | 37 | 40 | 41 | 42 | 43 => (v.rtl k).sp
  | _ => (v.rtl k).pc

end V

namespace A

theorem and_same (x y : BitVec 8) : x &&& y &&& y = x &&& y := by
  rw [BitVec.and_assoc, BitVec.and_self]

theorem or_same (x y : BitVec 8) : x ||| y ||| y = x ||| y := by
  rw [BitVec.or_assoc, BitVec.or_self]

/-- Fold the specification of the buses. -/
macro "bus_close" : tactic => `(tactic|
  (cycle_simp
   simp only [V.dataAfter, V.dirAfter, V.rtl, V.incPc, V.setPc, V.decSp, V.incSp, V.store,
     V.setAcFlags, V.setR, V.r, V.lowSel, V.highSel, V.hl, V.hi, V.lo, A.hi, A.lo, V.flagByte,
     A.flagByte, ite_not, and_self, reduceCtorEq, and_same, or_same]
   try (constructor <;> repeat' (first | trivial | (split <;> simp_all)))))

theorem bus0 (v : V) (s : A) : (v.at s 0xa83000#32).ucycle.data = v.dataAfter 0 s.data ∧
    (v.at s 0xa83000#32).ucycle.dir2 = v.dirAfter 0 := by
  bus_close

theorem bus1 (v : V) (s : A) : (v.at s 0x200000#32).ucycle.data = v.dataAfter 1 s.data ∧
    (v.at s 0x200000#32).ucycle.dir2 = v.dirAfter 1 := by
  bus_close

theorem bus2 (v : V) (s : A) : (v.at s 0x300200#32).ucycle.data = v.dataAfter 2 s.data ∧
    (v.at s 0x300200#32).ucycle.dir2 = v.dirAfter 2 := by
  bus_close

theorem bus3 (v : V) (s : A) : (v.at s 0x64210800#32).ucycle.data = v.dataAfter 3 s.data ∧
    (v.at s 0x64210800#32).ucycle.dir2 = v.dirAfter 3 := by
  bus_close

theorem bus4 (v : V) (s : A) : (v.at s 0x60210400#32).ucycle.data = v.dataAfter 4 s.data ∧
    (v.at s 0x60210400#32).ucycle.dir2 = v.dirAfter 4 := by
  bus_close

theorem bus5 (v : V) (s : A) : (v.at s 0x210580#32).ucycle.data = v.dataAfter 5 s.data ∧
    (v.at s 0x210580#32).ucycle.dir2 = v.dirAfter 5 := by
  bus_close

theorem bus6 (v : V) (s : A) : (v.at s 0x10210580#32).ucycle.data = v.dataAfter 6 s.data ∧
    (v.at s 0x10210580#32).ucycle.dir2 = v.dirAfter 6 := by
  bus_close

theorem bus7 (v : V) (s : A) : (v.at s 0x10200180#32).ucycle.data = v.dataAfter 7 s.data ∧
    (v.at s 0x10200180#32).ucycle.dir2 = v.dirAfter 7 := by
  bus_close

theorem bus8 (v : V) (s : A) : (v.at s 0x70210980#32).ucycle.data = v.dataAfter 8 s.data ∧
    (v.at s 0x70210980#32).ucycle.dir2 = v.dirAfter 8 := by
  bus_close

theorem bus9 (v : V) (s : A) : (v.at s 0x20210580#32).ucycle.data = v.dataAfter 9 s.data ∧
    (v.at s 0x20210580#32).ucycle.dir2 = v.dirAfter 9 := by
  bus_close

theorem bus10 (v : V) (s : A) : (v.at s 0x30210580#32).ucycle.data = v.dataAfter 10 s.data ∧
    (v.at s 0x30210580#32).ucycle.dir2 = v.dirAfter 10 := by
  bus_close

theorem bus11 (v : V) (s : A) : (v.at s 0x40210580#32).ucycle.data = v.dataAfter 11 s.data ∧
    (v.at s 0x40210580#32).ucycle.dir2 = v.dirAfter 11 := by
  bus_close

theorem bus12 (v : V) (s : A) : (v.at s 0x220200#32).ucycle.data = v.dataAfter 12 s.data ∧
    (v.at s 0x220200#32).ucycle.dir2 = v.dirAfter 12 := by
  bus_close

theorem bus13 (v : V) (s : A) : (v.at s 0x70210580#32).ucycle.data = v.dataAfter 13 s.data ∧
    (v.at s 0x70210580#32).ucycle.dir2 = v.dirAfter 13 := by
  bus_close

theorem bus14 (v : V) (s : A) : (v.at s 0x50210580#32).ucycle.data = v.dataAfter 14 s.data ∧
    (v.at s 0x50210580#32).ucycle.dir2 = v.dirAfter 14 := by
  bus_close

theorem bus15 (v : V) (s : A) : (v.at s 0xa81200#32).ucycle.data = v.dataAfter 15 s.data ∧
    (v.at s 0xa81200#32).ucycle.dir2 = v.dirAfter 15 := by
  bus_close

theorem bus16 (v : V) (s : A) : (v.at s 0xa81040#32).ucycle.data = v.dataAfter 16 s.data ∧
    (v.at s 0xa81040#32).ucycle.dir2 = v.dirAfter 16 := by
  bus_close

theorem bus17 (v : V) (s : A) : (v.at s 0xa81020#32).ucycle.data = v.dataAfter 17 s.data ∧
    (v.at s 0xa81020#32).ucycle.dir2 = v.dirAfter 17 := by
  bus_close

theorem bus18 (v : V) (s : A) : (v.at s 0x2280200#32).ucycle.data = v.dataAfter 18 s.data ∧
    (v.at s 0x2280200#32).ucycle.dir2 = v.dirAfter 18 := by
  bus_close

theorem bus19 (v : V) (s : A) : (v.at s 0x62010000#32).ucycle.data = v.dataAfter 19 s.data ∧
    (v.at s 0x62010000#32).ucycle.dir2 = v.dirAfter 19 := by
  bus_close

theorem bus20 (v : V) (s : A) : (v.at s 0x2201000#32).ucycle.data = v.dataAfter 20 s.data ∧
    (v.at s 0x2201000#32).ucycle.dir2 = v.dirAfter 20 := by
  bus_close

theorem bus21 (v : V) (s : A) : (v.at s 0x8300040#32).ucycle.data = v.dataAfter 21 s.data ∧
    (v.at s 0x8300040#32).ucycle.dir2 = v.dirAfter 21 := by
  bus_close

theorem bus22 (v : V) (s : A) : (v.at s 0xc300020#32).ucycle.data = v.dataAfter 22 s.data ∧
    (v.at s 0xc300020#32).ucycle.dir2 = v.dirAfter 22 := by
  bus_close

theorem bus23 (v : V) (s : A) : (v.at s 0x240400#32).ucycle.data = v.dataAfter 23 s.data ∧
    (v.at s 0x240400#32).ucycle.dir2 = v.dirAfter 23 := by
  bus_close

theorem bus24 (v : V) (s : A) : (v.at s 0x220080#32).ucycle.data = v.dataAfter 24 s.data ∧
    (v.at s 0x220080#32).ucycle.dir2 = v.dirAfter 24 := by
  bus_close

theorem bus25 (v : V) (s : A) : (v.at s 0x200002#32).ucycle.data = v.dataAfter 25 s.data ∧
    (v.at s 0x200002#32).ucycle.dir2 = v.dirAfter 25 := by
  bus_close

theorem bus26 (v : V) (s : A) : (v.at s 0x1e00004#32).ucycle.data = v.dataAfter 26 s.data ∧
    (v.at s 0x1e00004#32).ucycle.dir2 = v.dirAfter 26 := by
  bus_close

theorem bus27 (v : V) (s : A) : (v.at s 0x1040000#32).ucycle.data = v.dataAfter 27 s.data ∧
    (v.at s 0x1040000#32).ucycle.dir2 = v.dirAfter 27 := by
  bus_close

theorem bus28 (v : V) (s : A) : (v.at s 0x1008000#32).ucycle.data = v.dataAfter 28 s.data ∧
    (v.at s 0x1008000#32).ucycle.dir2 = v.dirAfter 28 := by
  bus_close

theorem bus29 (v : V) (s : A) : (v.at s 0x1004000#32).ucycle.data = v.dataAfter 29 s.data ∧
    (v.at s 0x1004000#32).ucycle.dir2 = v.dirAfter 29 := by
  bus_close

theorem bus30 (v : V) (s : A) : (v.at s 0x3201000#32).ucycle.data = v.dataAfter 30 s.data ∧
    (v.at s 0x3201000#32).ucycle.dir2 = v.dirAfter 30 := by
  bus_close

theorem bus31 (v : V) (s : A) : (v.at s 0x1a00004#32).ucycle.data = v.dataAfter 31 s.data ∧
    (v.at s 0x1a00004#32).ucycle.dir2 = v.dirAfter 31 := by
  bus_close

theorem bus32 (v : V) (s : A) : (v.at s 0x1280008#32).ucycle.data = v.dataAfter 32 s.data ∧
    (v.at s 0x1280008#32).ucycle.dir2 = v.dirAfter 32 := by
  bus_close

theorem bus33 (v : V) (s : A) : (v.at s 0x1280010#32).ucycle.data = v.dataAfter 33 s.data ∧
    (v.at s 0x1280010#32).ucycle.dir2 = v.dirAfter 33 := by
  bus_close

theorem bus34 (v : V) (s : A) : (v.at s 0x1280080#32).ucycle.data = v.dataAfter 34 s.data ∧
    (v.at s 0x1280080#32).ucycle.dir2 = v.dirAfter 34 := by
  bus_close

theorem bus35 (v : V) (s : A) : (v.at s 0x200001#32).ucycle.data = v.dataAfter 35 s.data ∧
    (v.at s 0x200001#32).ucycle.dir2 = v.dirAfter 35 := by
  bus_close

theorem bus36 (v : V) (s : A) : (v.at s 0x1020000#32).ucycle.data = v.dataAfter 36 s.data ∧
    (v.at s 0x1020000#32).ucycle.dir2 = v.dirAfter 36 := by
  bus_close

theorem bus37 (v : V) (s : A) : (v.at s 0x1280400#32).ucycle.data = v.dataAfter 37 s.data ∧
    (v.at s 0x1280400#32).ucycle.dir2 = v.dirAfter 37 := by
  bus_close

theorem bus38 (v : V) (s : A) : (v.at s 0x2200004#32).ucycle.data = v.dataAfter 38 s.data ∧
    (v.at s 0x2200004#32).ucycle.dir2 = v.dirAfter 38 := by
  bus_close

theorem bus39 (v : V) (s : A) : (v.at s 0x60210800#32).ucycle.data = v.dataAfter 39 s.data ∧
    (v.at s 0x60210800#32).ucycle.dir2 = v.dirAfter 39 := by
  bus_close

theorem bus40 (v : V) (s : A) : (v.at s 0x1e00004#32).ucycle.data = v.dataAfter 40 s.data ∧
    (v.at s 0x1e00004#32).ucycle.dir2 = v.dirAfter 40 := by
  bus_close

theorem bus41 (v : V) (s : A) : (v.at s 0x1a00004#32).ucycle.data = v.dataAfter 41 s.data ∧
    (v.at s 0x1a00004#32).ucycle.dir2 = v.dirAfter 41 := by
  bus_close

theorem bus42 (v : V) (s : A) : (v.at s 0x1e00004#32).ucycle.data = v.dataAfter 42 s.data ∧
    (v.at s 0x1e00004#32).ucycle.dir2 = v.dirAfter 42 := by
  bus_close

theorem bus43 (v : V) (s : A) : (v.at s 0x1a00004#32).ucycle.data = v.dataAfter 43 s.data ∧
    (v.at s 0x1a00004#32).ucycle.dir2 = v.dirAfter 43 := by
  bus_close

theorem bus44 (v : V) (s : A) : (v.at s 0x60210800#32).ucycle.data = v.dataAfter 44 s.data ∧
    (v.at s 0x60210800#32).ucycle.dir2 = v.dirAfter 44 := by
  bus_close

/-- All rows of the control store. -/
theorem bus_at (k : Nat) (hk : k < 45) (v : V) (s : A) :
    (v.at s (romOf k)).ucycle.data = v.dataAfter k s.data ∧
    (v.at s (romOf k)).ucycle.dir2 = v.dirAfter k := by
  match k, hk with
  | 0, _ => rw [rom0]; exact bus0 v s
  | 1, _ => rw [rom1]; exact bus1 v s
  | 2, _ => rw [rom2]; exact bus2 v s
  | 3, _ => rw [rom3]; exact bus3 v s
  | 4, _ => rw [rom4]; exact bus4 v s
  | 5, _ => rw [rom5]; exact bus5 v s
  | 6, _ => rw [rom6]; exact bus6 v s
  | 7, _ => rw [rom7]; exact bus7 v s
  | 8, _ => rw [rom8]; exact bus8 v s
  | 9, _ => rw [rom9]; exact bus9 v s
  | 10, _ => rw [rom10]; exact bus10 v s
  | 11, _ => rw [rom11]; exact bus11 v s
  | 12, _ => rw [rom12]; exact bus12 v s
  | 13, _ => rw [rom13]; exact bus13 v s
  | 14, _ => rw [rom14]; exact bus14 v s
  | 15, _ => rw [rom15]; exact bus15 v s
  | 16, _ => rw [rom16]; exact bus16 v s
  | 17, _ => rw [rom17]; exact bus17 v s
  | 18, _ => rw [rom18]; exact bus18 v s
  | 19, _ => rw [rom19]; exact bus19 v s
  | 20, _ => rw [rom20]; exact bus20 v s
  | 21, _ => rw [rom21]; exact bus21 v s
  | 22, _ => rw [rom22]; exact bus22 v s
  | 23, _ => rw [rom23]; exact bus23 v s
  | 24, _ => rw [rom24]; exact bus24 v s
  | 25, _ => rw [rom25]; exact bus25 v s
  | 26, _ => rw [rom26]; exact bus26 v s
  | 27, _ => rw [rom27]; exact bus27 v s
  | 28, _ => rw [rom28]; exact bus28 v s
  | 29, _ => rw [rom29]; exact bus29 v s
  | 30, _ => rw [rom30]; exact bus30 v s
  | 31, _ => rw [rom31]; exact bus31 v s
  | 32, _ => rw [rom32]; exact bus32 v s
  | 33, _ => rw [rom33]; exact bus33 v s
  | 34, _ => rw [rom34]; exact bus34 v s
  | 35, _ => rw [rom35]; exact bus35 v s
  | 36, _ => rw [rom36]; exact bus36 v s
  | 37, _ => rw [rom37]; exact bus37 v s
  | 38, _ => rw [rom38]; exact bus38 v s
  | 39, _ => rw [rom39]; exact bus39 v s
  | 40, _ => rw [rom40]; exact bus40 v s
  | 41, _ => rw [rom41]; exact bus41 v s
  | 42, _ => rw [rom42]; exact bus42 v s
  | 43, _ => rw [rom43]; exact bus43 v s
  | 44, _ => rw [rom44]; exact bus44 v s
  | k + 45, h => omega

/-- The buses after a clock cycle. -/
theorem cycle_bus (a : A) (hs : a.Settled) (hq : a.dd.toNat < 45) :
    a.cycle.data = a.view.dataAfter a.dd.toNat a.data ∧
    a.cycle.dir2 = a.view.dirAfter a.dd.toNat := by
  obtain ⟨h1, h2, h3, h4, h5, h6, h7, h8⟩ := hs
  have e : a.dxflipflop.seqJnr.mxregJnr.seq.rom =
      a.view.at a.dxflipflop.seqJnr.mxregJnr.seq (romOf a.dd.toNat) := by
    obtain ⟨data, dir1, dir2, pcOut, spOut, hlOut, fffcOut, acOut, op2Out, aluFc, aluFz, selreg, mx7,
      mx0, fcOut, fzOut, riOut, joiner, q, dd, jnr1, jnr2, control, ac, rb, rc, rd, re, rh, rl, op2,
      pch, pcl, ri, pc, sp, fc, fz, mem, log⟩ := a
    dsimp only at h1 h2 h3 h4 h5 h6 h7 h8
    subst h1 h2 h3 h4 h5 h6 h7 h8
    rfl
  have c : a.cycle = (a.view.at a.dxflipflop.seqJnr.mxregJnr.seq (romOf a.dd.toNat)).ucycle := by
    rw [← e]; rfl
  have b := bus_at a.dd.toNat hq a.view a.dxflipflop.seqJnr.mxregJnr.seq
  rw [c]
  exact b

end A
end Mpp
