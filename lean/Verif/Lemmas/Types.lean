import Verif.Spec.Types
namespace BX
open XBT Spec

theorem forall_of_all {p : XBT → Prop} (h : ∀ t ∈ XBT.all, p t) (t : XBT) : p t := h t (mem_all t)

/-- the types `XBT_Detect` can return -/
def detectable : List XBT :=
  [NULL, STRING, INT32, INT64, FLOAT, DOUBLE, HEX, GUID, SHA1, UNIX_TIME, IPv4, UINT64, UNIX_TIME64_MSEC, UINT32, UNIX_DATE,
   INT32_DECI, INT32_CENTI, INT32_MILI, INT32_MICRO, INT32_NANO]

theorem ite_mem {p : Prop} [Decidable p] {a b : XBT} {S : List XBT} (ha : a ∈ S) (hb : b ∈ S) :
    (if p then a else b) ∈ S := by split <;> assumption

theorem decide_mem (d : Det) (h : Bool) (n : Nat) (v : CStr) : d.decide h n v ∈ detectable := by
  unfold Det.decide
  dsimp only
  repeat' apply ite_mem
  all_goals (unfold detectable; decide)

theorem detect_mem (v : CStr) : detect v ∈ detectable := by
  unfold detect
  split
  · simp [detectable]
  · exact decide_mem ..
  · exact decide_mem ..

theorem join_lub_all : ∀ a ∈ XBT.all, ∀ b ∈ XBT.all, ValueType a → ValueType b →
    (ValueType (joinTypes a b) ∧ Below a (joinTypes a b) ∧ Below b (joinTypes a b) ∧
      ∀ u ∈ XBT.all, ValueType u → Below a u → Below b u → Below (joinTypes a b) u) := by
  decide +kernel

theorem below_antisymm_all : ∀ a ∈ XBT.all, ∀ b ∈ XBT.all, Below a b → Below b a → a = b := by
  decide +kernel
theorem below_trans_all : ∀ a ∈ XBT.all, ∀ b ∈ XBT.all, ∀ c ∈ XBT.all, Below a b → Below b c → Below a c := by
  decide +kernel
theorem below_refl (a : XBT) : Below a a := by simp [Below]

theorem join_comm_all : ∀ a ∈ XBT.all, ∀ b ∈ XBT.all, ValueType a → ValueType b → joinTypes a b = joinTypes b a := by
  decide +kernel
theorem join_assoc_all : ∀ a ∈ XBT.all, ∀ b ∈ XBT.all, ∀ c ∈ XBT.all,
    joinTypes (joinTypes a b) c = joinTypes a (joinTypes b c) := by
  decide +kernel

theorem join_comm {a b : XBT} (ha : ValueType a) (hb : ValueType b) : joinTypes a b = joinTypes b a :=
  join_comm_all a (mem_all a) b (mem_all b) ha hb
theorem join_assoc (a b c : XBT) : joinTypes (joinTypes a b) c = joinTypes a (joinTypes b c) :=
  join_assoc_all a (mem_all a) b (mem_all b) c (mem_all c)

end BX
