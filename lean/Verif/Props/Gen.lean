import Verif.Model.Gen
import Verif.Lemmas.Image
/-
Property C85: the generated identifications.
-/
namespace BX

/-- the largest `int64_t` -/
def Spec.maxI64 : Int := 9223372036854775807
open Spec

/-- from a counter that is not 0 on, the numbers are the random ones, each changed by the next value of the counter -/
theorem genAll_get {clock : Int} : ∀ {cs : List GenCall} {base : Int} {l : List (BitVec 64)}, 0 < base → base ≤ maxI64 → genAll clock base cs = .ok l →
    l.length = cs.length ∧ base + cs.length ≤ maxI64 ∧ ∀ (i : Nat) (c : GenCall), cs[i]? = some c → l[i]? = some (c.raw ^^^ BitVec.ofInt 64 (base + i))
  | [], base, l, hb, hm, h => by
    unfold genAll at h
    cases h
    exact ⟨rfl, by simpa using hm, by simp⟩
  | c :: cs, base, l, hb, hm, h => by
    unfold genAll at h
    obtain ⟨r, hr, h⟩ := Out.bind_eq_ok h
    obtain ⟨l', hl', h⟩ := Out.bind_eq_ok h
    cases h
    unfold gen genStart at hr
    simp only [if_neg (by omega : ¬ base = 0)] at hr
    split at hr
    · cases hr
    · rename_i hne
      cases hr
      obtain ⟨h1, h2, h3⟩ := genAll_get (base := base + 1) (by omega) (by unfold maxI64 at *; omega) hl'
      refine ⟨by simp [h1], by simp; omega, ?_⟩
      intro i d hd
      cases i with
      | zero =>
        cases hd
        simp
      | succ i =>
        have := h3 i d hd
        rw [List.getElem?_cons_succ, this]
        congr 3
        omega

/-- the same from the start of the process on -/
theorem genAll_start {clock : Int} (h0 : 0 ≤ clock) (h1 : clock ≤ maxI64) {cs : List GenCall} {l : List (BitVec 64)} (h : genAll clock 0 cs = .ok l) :
    l.length = cs.length ∧ clock + cs.length ≤ maxI64 ∧ ∀ (i : Nat) (c : GenCall), cs[i]? = some c → l[i]? = some (c.raw ^^^ BitVec.ofInt 64 (clock + i)) := by
  cases cs with
  | nil =>
    unfold genAll at h
    cases h
    exact ⟨rfl, by simpa using h1, by simp⟩
  | cons c cs =>
    unfold genAll at h
    obtain ⟨r, hr, h⟩ := Out.bind_eq_ok h
    obtain ⟨l', hl', h⟩ := Out.bind_eq_ok h
    cases h
    unfold gen genStart at hr
    simp only [if_true] at hr
    split at hr
    · cases hr
    · rename_i hne
      cases hr
      obtain ⟨g1, g2, g3⟩ := genAll_get (base := clock + 1) (by omega) (by unfold maxI64 at *; omega) hl'
      refine ⟨by simp [g1], by simp; omega, ?_⟩
      intro i d hd
      cases i with
      | zero =>
        cases hd
        simp
      | succ i =>
        have := g3 i d hd
        rw [List.getElem?_cons_succ, this]
        congr 3
        omega

theorem xor_swap {w : Nat} (a b c d : BitVec w) : a ^^^ b = c ^^^ d ↔ a ^^^ c = b ^^^ d := by
  constructor
  · intro h
    have : (a ^^^ b) ^^^ (b ^^^ c) = (c ^^^ d) ^^^ (b ^^^ c) := by rw [h]
    rw [show (a ^^^ b) ^^^ (b ^^^ c) = a ^^^ c by rw [BitVec.xor_assoc, ← BitVec.xor_assoc b b c, BitVec.xor_self, BitVec.zero_xor],
      show (c ^^^ d) ^^^ (b ^^^ c) = b ^^^ d by
        rw [BitVec.xor_comm b c, BitVec.xor_assoc, ← BitVec.xor_assoc d c b, BitVec.xor_comm d c, BitVec.xor_assoc c d b, ← BitVec.xor_assoc c c, BitVec.xor_self, BitVec.zero_xor, BitVec.xor_comm]] at this
    exact this
  · intro h
    have : (a ^^^ c) ^^^ (c ^^^ b) = (b ^^^ d) ^^^ (c ^^^ b) := by rw [h]
    rw [show (a ^^^ c) ^^^ (c ^^^ b) = a ^^^ b by rw [BitVec.xor_assoc, ← BitVec.xor_assoc c c b, BitVec.xor_self, BitVec.zero_xor],
      show (b ^^^ d) ^^^ (c ^^^ b) = c ^^^ d by
        rw [BitVec.xor_comm c b, BitVec.xor_assoc, ← BitVec.xor_assoc d b c, BitVec.xor_comm d b, BitVec.xor_assoc b d c, ← BitVec.xor_assoc b b, BitVec.xor_self, BitVec.zero_xor, BitVec.xor_comm]] at this
    exact this

/-- two counters below 2^63 have different bits -/
theorem ofInt_ne {a b : Int} (ha : 0 ≤ a) (hb : 0 ≤ b) (ha' : a ≤ maxI64) (hb' : b ≤ maxI64) (h : a ≠ b) : BitVec.ofInt 64 a ≠ BitVec.ofInt 64 b := by
  intro h'
  have := congrArg BitVec.toNat h'
  unfold maxI64 at *
  rw [BitVec.toNat_ofInt, BitVec.toNat_ofInt] at this
  omega

/-- C85: two numbers of one process are equal exactly if their random parts differ in the same bits as the counters. In particular they
differ if the random parts are equal: a source of random numbers that is stuck, or begins again, does not repeat a number. (They may be
equal otherwise, see `C85_repeat_false`.) -/
theorem C85_repeat_partial (clock : Int) (h0 : 0 ≤ clock) (h1 : clock ≤ maxI64) (cs : List GenCall) (l : List (BitVec 64)) (h : genAll clock 0 cs = .ok l)
    (i j : Nat) (c d : GenCall) (hi : cs[i]? = some c) (hj : cs[j]? = some d) (hij : i ≠ j) :
    (l[i]? = l[j]? ↔ c.raw ^^^ d.raw = BitVec.ofInt 64 (clock + i) ^^^ BitVec.ofInt 64 (clock + j)) ∧ (c.raw = d.raw → l[i]? ≠ l[j]?) := by
  obtain ⟨h2, h3, h4⟩ := genAll_start h0 h1 h
  have li := (List.getElem?_eq_some_iff.1 hi).1
  have lj := (List.getElem?_eq_some_iff.1 hj).1
  have first : l[i]? = l[j]? ↔ c.raw ^^^ d.raw = BitVec.ofInt 64 (clock + i) ^^^ BitVec.ofInt 64 (clock + j) := by
    rw [h4 i c hi, h4 j d hj, Option.some_inj]
    exact xor_swap _ _ _ _
  refine ⟨first, fun hr h' => ?_⟩
  have := first.1 h'
  rw [hr, BitVec.xor_self] at this
  refine ofInt_ne (a := clock + i) (b := clock + j) (by omega) (by omega) (by omega) (by omega) (by omega) ?_
  exact (BitVec.xor_eq_zero_iff).1 this.symm

theorem raw_lt (c : GenCall) : c.raw.toNat < 2 ^ 63 := by
  have hh := c.hi.isLt
  have hl := c.lo.isLt
  unfold GenCall.raw
  cases c.kind with
  | i64 =>
    simp only [BitVec.toNat_or, BitVec.toNat_shiftLeft, BitVec.toNat_setWidth]
    refine Nat.or_lt_two_pow ?_ (by omega)
    rw [Nat.shiftLeft_eq]
    omega
  | u64 =>
    simp only [BitVec.toNat_or, BitVec.toNat_shiftLeft, BitVec.toNat_setWidth]
    refine Nat.or_lt_two_pow ?_ (by omega)
    rw [Nat.shiftLeft_eq]
    omega

/-- C85: the numbers are never negative; those of `genU64` take only the lower half of the range. -/
theorem C85_positive (clock : Int) (h0 : 0 ≤ clock) (h1 : clock ≤ maxI64) (cs : List GenCall) (l : List (BitVec 64)) (h : genAll clock 0 cs = .ok l) :
    ∀ v ∈ l, 0 ≤ v.toInt ∧ v.toNat < 2 ^ 63 := by
  obtain ⟨h2, h3, h4⟩ := genAll_start h0 h1 h
  intro v hv
  obtain ⟨i, hi, rfl⟩ := List.getElem_of_mem hv
  obtain ⟨c, hc⟩ : ∃ c, cs[i]? = some c := ⟨_, List.getElem?_eq_getElem (by omega)⟩
  have e := h4 i c hc
  rw [List.getElem?_eq_getElem hi, Option.some_inj] at e
  have hlt : (l[i]).toNat < 2 ^ 63 := by
    rw [e, BitVec.toNat_xor]
    refine Nat.xor_lt_two_pow (raw_lt c) ?_
    rw [BitVec.toNat_ofInt]
    unfold maxI64 at *
    omega
  refine ⟨?_, hlt⟩
  rw [BitVec.toInt_eq_toNat_of_lt (by omega)]
  omega

/-- C85: calls succeed until the counter, which begins with the clock, has reached the largest number. -/
theorem C85_defined (clock : Int) (h0 : 0 ≤ clock) (cs : List GenCall) (h1 : clock + cs.length ≤ maxI64) : ∃ l, genAll clock 0 cs = .ok l := by
  have run : ∀ (cs : List GenCall) (base : Int), 0 < base → base + cs.length ≤ maxI64 → ∃ l, genAll clock base cs = .ok l := by
    intro cs
    induction cs with
    | nil => intro base _ _; exact ⟨_, rfl⟩
    | cons c cs ih =>
      intro base hb hm
      simp only [List.length_cons] at hm
      obtain ⟨l, hl⟩ := ih (base + 1) (by omega) (by omega)
      refine ⟨(c.raw ^^^ BitVec.ofInt 64 base) :: l, ?_⟩
      unfold genAll gen genStart
      simp only [if_neg (by omega : ¬ base = 0), if_neg (by unfold maxI64 at hm; omega : ¬ base = 9223372036854775807), Out.ok_bind, hl]
      rfl
  cases cs with
  | nil => exact ⟨_, rfl⟩
  | cons c cs =>
    simp only [List.length_cons] at h1
    obtain ⟨l, hl⟩ := run cs (clock + 1) (by omega) (by omega)
    refine ⟨(c.raw ^^^ BitVec.ofInt 64 clock) :: l, ?_⟩
    unfold genAll gen genStart
    simp only [if_true, if_neg (by unfold maxI64 at h1; omega : ¬ clock = 9223372036854775807), Out.ok_bind, hl]
    rfl

theorem even_xor {c : Int} (h0 : 0 ≤ c) (h : c % 2 = 0) (h1 : c < maxI64) : BitVec.ofInt 64 c ^^^ BitVec.ofInt 64 (c + 1) = 1#64 := by
  obtain ⟨n, rfl⟩ : ∃ n : Nat, c = 2 * n := ⟨(c / 2).toNat, by omega⟩
  apply BitVec.eq_of_toNat_eq
  rw [BitVec.toNat_xor, BitVec.toNat_ofInt, BitVec.toNat_ofInt]
  unfold maxI64 at h1
  rw [show ((2 * (n : Int)) % ((2 ^ 64 : Nat) : Int)).toNat = 2 * n by omega, show ((2 * (n : Int) + 1) % ((2 ^ 64 : Nat) : Int)).toNat = 2 * n + 1 by omega]
  apply Nat.eq_of_testBit_eq
  intro i
  rw [Nat.testBit_xor]
  cases i with
  | zero => simp [Nat.testBit_zero]
  | succ i => simp [Nat.testBit_succ]; rw [show (2 * n + 1) / 2 = n by omega]

/-- C85 is false in general: whatever the clock says, there are random numbers for which two of the first three calls of `genI64` (and of
`genU64`) give the same number. -/
theorem C85_repeat_false (k : GenKind) (clock : Int) (h0 : 0 ≤ clock) (h1 : clock + 3 ≤ maxI64) :
    ∃ (cs : List GenCall) (l : List (BitVec 64)) (i j : Nat), cs.length = 3 ∧ (∀ c ∈ cs, c.kind = k) ∧ genAll clock 0 cs = .ok l ∧ i < j ∧ j < 3 ∧ l[i]? = l[j]? := by
  have r0 : (GenCall.mk k 0 0).raw = 0#64 := by cases k <;> decide
  have r1 : (GenCall.mk k 0 1).raw = 1#64 := by cases k <;> decide
  by_cases he : clock % 2 = 0
  · obtain ⟨l, hl⟩ := C85_defined clock h0 [⟨k, 0, 0⟩, ⟨k, 0, 1⟩, ⟨k, 0, 0⟩] (by simpa using h1)
    refine ⟨_, l, 0, 1, rfl, by simp, hl, by decide, by decide, ?_⟩
    refine ((C85_repeat_partial clock h0 (by unfold maxI64 at *; omega) _ l hl 0 1 _ _ rfl rfl (by decide)).1).2 ?_
    rw [r0, r1]
    have := even_xor h0 he (by omega)
    simpa using this.symm
  · obtain ⟨l, hl⟩ := C85_defined clock h0 [⟨k, 0, 0⟩, ⟨k, 0, 0⟩, ⟨k, 0, 1⟩] (by simpa using h1)
    refine ⟨_, l, 1, 2, rfl, by simp, hl, by decide, by decide, ?_⟩
    refine ((C85_repeat_partial clock h0 (by unfold maxI64 at *; omega) _ l hl 1 2 _ _ rfl rfl (by decide)).1).2 ?_
    rw [r0, r1]
    have := even_xor (c := clock + 1) (by omega) (by omega) (by omega)
    rw [show clock + 1 + 1 = clock + 2 by omega] at this
    simpa using this.symm

/-- three calls at 5 nanoseconds: two with the same random parts, and one of the other function -/
example : genAll 5 0 [⟨.i64, 1, 7⟩, ⟨.i64, 1, 7⟩, ⟨.u64, 1, 7⟩] = .ok [0x80000002#64, 0x80000001#64, 0x100000000#64] := by decide +kernel

end BX
