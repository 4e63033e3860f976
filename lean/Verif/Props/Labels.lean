import Verif.Props.Diagram
import Verif.Front.Labels
/-!
# Property C52: the boxes show the registers that they are named after
-/
namespace Mpp.Front

/-- The names of the registers on the page. -/
def registerLabels : List (String × WType) :=
  [("RB", .b), ("RC", .c), ("RD", .d), ("RE", .e), ("ACUM", .acum), ("2OP", .op2), ("PC", .pc), ("SP", .sp),
   ("H", .h), ("L", .l), ("RI", .ri)]

theorem loc_table (lang : String) : ∃ l ∈ ["eu", "en", "es"], loc lang = loc l := by
  by_cases h1 : lang = "eu"
  · exact ⟨"eu", by simp, by rw [h1]⟩
  by_cases h2 : lang = "es"
  · exact ⟨"es", by simp, by rw [h2]⟩
  refine ⟨"en", by simp, funext fun key => ?_⟩
  unfold loc languageData
  simp only [h1, h2, if_false, ite_self]
  rw [if_neg (by decide), if_pos trivial]

def getterOf : WType → String
  | .acum => "get_register_acum" | .fc => "get_register_fc" | .fz => "get_register_fz"
  | .b => "get_register_b" | .c => "get_register_c" | .d => "get_register_d" | .e => "get_register_e"
  | .h => "get_register_h" | .l => "get_register_l" | .op2 => "get_register_2op" | .pch => "get_register_pch"
  | .pcl => "get_register_pcl" | .pc => "get_register_pc" | .sp => "get_register_sp" | .ri => "get_register_ri"

theorem getterOf_named (t : WType) : callNamed (getterOf t) = some (.getRegisterValue t) := by cases t <;> rfl

theorem label_table : ∀ lang ∈ ["eu", "en", "es"], ∀ n ∈ registerLabels,
    (boxes.filter fun b => labelOf lang b = some n.1).map (fun b => b.get) =
      [some (getterOf n.2)] := by decide +kernel

/-- **C52, names.** In every language there is exactly one box with the name of a register, and whatever the
state of the machine, the number in it is the value of that register. -/
theorem C52_named (lang : String) (n : String × WType) (hn : n ∈ registerLabels) :
    ∃ b ∈ boxes, labelOf lang b = some n.1 ∧ (∀ b' ∈ boxes, labelOf lang b' = some n.1 → b' = b) ∧
      ∃ g, b.get = some g ∧ ∀ h x, Mpp.Reads h g x ↔ RegIs h n.2 x := by
  obtain ⟨l, hl, e⟩ := loc_table lang
  have e : labelOf lang = labelOf l := by funext b; simp only [labelOf, e]
  rw [e]
  have t := label_table l hl n hn
  cases q : boxes.filter fun b => labelOf l b = some n.1 with
  | nil => rw [q] at t; cases t
  | cons b bs =>
    rw [q] at t
    cases bs with
    | cons c cs => simp at t
    | nil =>
      have mem : ∀ b', b' ∈ boxes ∧ labelOf l b' = some n.1 ↔ b' = b := by
        intro b'
        have := @List.mem_filter _ (fun b => decide (labelOf l b = some n.1)) boxes b'
        rw [q] at this
        simpa using this.symm
      have hb := (mem b).2 rfl
      refine ⟨b, hb.1, hb.2, fun b' m h => (mem b').1 ⟨m, h⟩, ?_⟩
      have t : b.get = some (getterOf n.2) := by simpa using t
      refine ⟨_, t, fun h x => ⟨?_, fun h => ⟨_, getterOf_named _, h⟩⟩⟩
      rintro ⟨c, hc, r⟩
      rw [getterOf_named] at hc
      cases hc
      exact r

/-- **C52, names of the lines.** The line drawn at a box bears the name of the signal that it shows. -/
theorem C52_line_names : ∀ b ∈ boxes, ∀ l f, b.load = some (l, f) ∨ b.release = some (l, f) →
    f.toList.map Char.toUpper = "GET_CONTROL_BUS_".toList ++ l.toList := by
  have : ∀ b ∈ boxes, ∀ p ∈ b.load.toList ++ b.release.toList,
      p.2.toList.map Char.toUpper = "GET_CONTROL_BUS_".toList ++ p.1.toList := by decide +kernel
  intro b hb l f h
  refine this b hb (l, f) ?_
  rw [List.mem_append]
  rcases h with h | h
  · left; simp [h]
  · right; simp [h]

example : ∃ b ∈ boxes, labelOf "eu" b = some "2OP" ∧ b.load = some ("2OPCAR", "get_control_bus_2opcar") := by
  decide +kernel

end Mpp.Front
