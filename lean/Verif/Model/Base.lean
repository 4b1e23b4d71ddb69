/-
Basic vocabulary of the model: outcomes with undefined behaviour, C character classes, little-endian integers.
These definitions do not model a function of the repository but the C/C++ language and libc facilities it uses.
-/
namespace BX

/-- Outcome of a C++ call: a result, a reported failure (`false`, `nullptr`, negative code) or undefined behaviour. -/
inductive Out (α : Type) where
  | ok (a : α)
  | fail
  | ub
deriving DecidableEq, Repr

namespace Out
def bind {α β : Type} (x : Out α) (f : α → Out β) : Out β :=
  match x with
  | ok a => f a
  | fail => fail
  | ub => ub
@[simp] theorem bind_ok {α β : Type} (a : α) (f : α → Out β) : (ok a).bind f = f a := rfl
@[simp] theorem bind_fail {α β : Type} (f : α → Out β) : (fail : Out α).bind f = fail := rfl
@[simp] theorem bind_ub {α β : Type} (f : α → Out β) : (ub : Out α).bind f = ub := rfl
end Out

/-- A C string: the bytes before the terminating NUL (every character has code `1..255`). -/
abbrev CStr := List Char

/-- `*p`: the character under the cursor, NUL at the end of the string. -/
def peek (p : CStr) : Char := p.headD '\x00'

/-- `p[i]` within a string, NUL at or after the terminator. -/
def cAt (p : CStr) (i : Nat) : Char := p.getD i '\x00'

/-- `isspace` in the C locale. -/
def isSpace (c : Char) : Bool := c == ' ' || c == '\t' || c == '\n' || c == '\x0b' || c == '\x0c' || c == '\r'

/-- `isdigit`, i.e. `c >= '0' && c <= '9'`. -/
def isDig (c : Char) : Bool := '0'.toNat ≤ c.toNat && c.toNat ≤ '9'.toNat

/-- `c - '0'` for a digit. -/
def digVal (c : Char) : Nat := c.toNat - 48

/-- `while (isspace(*p)) p++;` -/
def skipSpaces : CStr → CStr
  | [] => []
  | c :: cs => if isSpace c then skipSpaces cs else c :: cs

/-! Machine integers -/

def INT_MAX : Int := 2147483647
def INT_MIN : Int := -2147483648
def INT64_MAX : Int := 9223372036854775807
def INT64_MIN : Int := -9223372036854775808

/-- `v` is representable as `int32_t`. -/
def isI32 (v : Int) : Prop := INT_MIN ≤ v ∧ v ≤ INT_MAX
/-- `v` is representable as `int64_t`. -/
def isI64 (v : Int) : Prop := INT64_MIN ≤ v ∧ v ≤ INT64_MAX

instance (v : Int) : Decidable (isI32 v) := inferInstanceAs (Decidable (_ ∧ _))
instance (v : Int) : Decidable (isI64 v) := inferInstanceAs (Decidable (_ ∧ _))

/-- Two's complement image of a value as an unsigned `n`-bit number. -/
def toU (bits : Nat) (v : Int) : Nat := (v % (2 ^ bits : Nat)).toNat
/-- Signed reading of an unsigned `n`-bit number. -/
def ofU (bits : Nat) (n : Nat) : Int := if n < 2 ^ (bits - 1) then (n : Int) else (n : Int) - (2 ^ bits : Nat)

/-- Little-endian bytes of a number, `k` bytes. -/
def leN : Nat → Nat → List UInt8
  | 0, _ => []
  | k+1, n => UInt8.ofNat n :: leN k (n / 256)
/-- Number read from little-endian bytes. -/
def rdN : List UInt8 → Nat
  | [] => 0
  | b :: bs => b.toNat + 256 * rdN bs

theorem leN_length (k n : Nat) : (leN k n).length = k := by
  induction k generalizing n with
  | zero => rfl
  | succ k ih => simp [leN, ih]

theorem rdN_leN (k n : Nat) : rdN (leN k n) = n % 256 ^ k := by
  induction k generalizing n with
  | zero => simp [leN, rdN, Nat.mod_one]
  | succ k ih =>
    simp only [leN, rdN, ih, UInt8.toNat_ofNat']
    have h := Nat.mod_mul (x := n) (a := 256) (b := 256 ^ k)
    rw [show (256:Nat) ^ (k+1) = 256 * 256 ^ k from Nat.pow_succ', h]

theorem ofU_toU (bits : Nat) (hb : 0 < bits) (v : Int)
    (h1 : -(2 ^ (bits-1) : Nat) ≤ v) (h2 : v < (2 ^ (bits-1) : Nat)) : ofU bits (toU bits v) = v := by
  obtain ⟨m, rfl⟩ : ∃ m, bits = m + 1 := ⟨bits - 1, by omega⟩
  simp only [Nat.add_sub_cancel] at h1 h2
  unfold ofU toU
  simp only [Nat.add_sub_cancel]
  generalize hM : 2 ^ m = M at *
  have hB : 2 ^ (m+1) = 2 * M := by rw [Nat.pow_succ, hM]; omega
  rw [hB]
  have hMpos : 0 < M := by omega
  by_cases hv : 0 ≤ v
  · have : v % (2 * M : Nat) = v := Int.emod_eq_of_lt hv (by omega)
    rw [this]
    rw [if_pos (by omega)]; omega
  · have : v % (2 * M : Nat) = v + (2 * M : Nat) := by
      rw [← Int.add_emod_right]
      exact Int.emod_eq_of_lt (by omega) (by omega)
    rw [this]
    rw [if_neg (by omega)]; omega

theorem toU_lt (bits : Nat) (v : Int) : toU bits v < 2 ^ bits := by
  unfold toU
  have : (0:Int) < (2 ^ bits : Nat) := by exact_mod_cast Nat.two_pow_pos bits
  have := Int.emod_lt_of_pos v this
  have := Int.emod_nonneg v (by omega : ((2 ^ bits : Nat) : Int) ≠ 0)
  omega

/-- `*(int32_t*)p = v` -/
def le32 (v : Int) : List UInt8 := leN 4 (toU 32 v)
/-- `*(int64_t*)p = v` -/
def le64 (v : Int) : List UInt8 := leN 8 (toU 64 v)
/-- `*(uint32_t*)p` for the first four bytes -/
def rdU32 (m : List UInt8) : Nat := rdN (m.take 4)
/-- `*(int32_t*)p` for the first four bytes -/
def rdI32 (m : List UInt8) : Int := ofU 32 (rdN (m.take 4))
/-- `*(int64_t*)p` for the first eight bytes -/
def rdI64 (m : List UInt8) : Int := ofU 64 (rdN (m.take 8))
/-- `*(uint64_t*)p` -/
def rdU64 (m : List UInt8) : Nat := rdN (m.take 8)

@[simp] theorem le32_length (v : Int) : (le32 v).length = 4 := leN_length _ _
@[simp] theorem le64_length (v : Int) : (le64 v).length = 8 := leN_length _ _

theorem rdI32_le32 (v : Int) (t : List UInt8) (h : isI32 v) : rdI32 (le32 v ++ t) = v := by
  unfold isI32 INT_MIN INT_MAX at h
  unfold rdI32 
  rw [List.take_append_of_le_length (by simp), List.take_of_length_le (by simp)]
  unfold le32
  rw [rdN_leN, Nat.mod_eq_of_lt (by simpa using toU_lt 32 v)]
  exact ofU_toU 32 (by omega) v (by omega) (by omega)

theorem rdI64_le64 (v : Int) (t : List UInt8) (h : isI64 v) : rdI64 (le64 v ++ t) = v := by
  unfold isI64 INT64_MIN INT64_MAX at h
  unfold rdI64
  rw [List.take_append_of_le_length (by simp), List.take_of_length_le (by simp)]
  unfold le64
  rw [rdN_leN, Nat.mod_eq_of_lt (by simpa using toU_lt 64 v)]
  exact ofU_toU 64 (by omega) v (by omega) (by omega)

theorem rdU64_leN (n : Nat) (t : List UInt8) (h : n < 2^64) : rdU64 (leN 8 n ++ t) = n := by
  unfold rdU64
  rw [List.take_append_of_le_length (by simp [leN_length]), List.take_of_length_le (by simp [leN_length])]
  rw [rdN_leN, Nat.mod_eq_of_lt (by simpa using h)]

theorem rdU32_leN (n : Nat) (t : List UInt8) (h : n < 2^32) : rdU32 (leN 4 n ++ t) = n := by
  unfold rdU32
  rw [List.take_append_of_le_length (by simp [leN_length]), List.take_of_length_le (by simp [leN_length])]
  rw [rdN_leN, Nat.mod_eq_of_lt (by simpa using h)]

end BX
