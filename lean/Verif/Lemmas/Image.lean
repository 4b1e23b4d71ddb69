import Verif.Model.Create
import Verif.Props.Symbols
namespace BX
open XBT Spec

/-! ### memory -/

theorem slice_length (m : Mem) (a n : Nat) : (slice m a n).length = n := by simp [slice]
theorem slice_getElem (m : Mem) (a n i : Nat) (h : i < (slice m a n).length) : (slice m a n)[i] = m (a + i) := by simp [slice]

theorem slice_congr {m m' : Mem} {a n : Nat} (h : ∀ i, a ≤ i → i < a + n → m' i = m i) : slice m' a n = slice m a n := by
  apply List.ext_getElem
  · simp [slice_length]
  · intro i h1 h2
    rw [slice_getElem, slice_getElem]
    rw [slice_length] at h1
    exact h _ (by omega) (by omega)

theorem slice_add (m : Mem) (a n k : Nat) : slice m a (n + k) = slice m a n ++ slice m (a + n) k := by
  apply List.ext_getElem
  · simp [slice_length]
  · intro i h1 h2
    rw [slice_getElem, List.getElem_append]
    split
    · rw [slice_getElem]
    · next h =>
      rw [slice_getElem]
      rw [slice_length] at h ⊢
      congr 1; omega

/-- memory `m` contains the bytes `bs` at `a` -/
def Has (m : Mem) (a : Nat) (bs : List UInt8) : Prop := slice m a bs.length = bs

theorem Has.self (m : Mem) (a : Nat) (bs : List UInt8) : Has (memPut m a bs) a bs := by
  unfold Has
  apply List.ext_getElem
  · rw [slice_length]
  · intro i h1 h2
    rw [slice_getElem, memPut_get _ _ _ _ h2]

theorem Has.congr {m m' : Mem} {a : Nat} {bs : List UInt8} (h : Has m a bs) (he : ∀ i, a ≤ i → i < a + bs.length → m' i = m i) : Has m' a bs := by
  unfold Has at *
  rw [slice_congr he]; exact h

theorem Has.frame {m : Mem} {a : Nat} {bs : List UInt8} (h : Has m a bs) {d : Nat} {cs : List UInt8}
    (hd : a + bs.length ≤ d ∨ d + cs.length ≤ a) : Has (memPut m d cs) a bs :=
  h.congr fun i h1 h2 => memPut_frame _ _ _ _ (by omega)

theorem Has.append {m : Mem} {a : Nat} {bs cs : List UInt8} : Has m a (bs ++ cs) ↔ Has m a bs ∧ Has m (a + bs.length) cs := by
  unfold Has
  rw [List.length_append, slice_add]
  constructor
  · intro h
    exact List.append_inj h (by simp [slice_length])
  · rintro ⟨h1, h2⟩
    rw [h1, h2]

theorem Has.get {m : Mem} {a : Nat} {bs : List UInt8} (h : Has m a bs) (i : Nat) (hi : i < bs.length) : m (a + i) = bs[i] := by
  have := List.getElem_of_eq h (i := i) (by simpa [slice_length] using hi)
  rw [slice_getElem] at this
  exact this

/-! ### reading -/

theorem Img.rd_ok {f : Img} {a : Nat} {bs : List UInt8} (h : Has f.mem a bs) (hs : a + bs.length ≤ f.size) (A : Int) (hA : A = a)
    (n : Nat) (hn : n = bs.length) : f.rd A n = .ok bs := by
  subst hA hn
  unfold Img.rd
  rw [if_pos (by omega)]
  exact congrArg _ h

theorem Img.u8_ok {f : Img} {a : Nat} {b : UInt8} (h : Has f.mem a [b]) (hs : a + 1 ≤ f.size) (A : Int) (hA : A = a) : f.u8 A = .ok b := by
  unfold Img.u8
  rw [f.rd_ok h hs A hA 1 rfl]; rfl

theorem Img.i16_ok {f : Img} {a : Nat} {v : Int} (h : Has f.mem a (leN 2 (toU 16 v))) (hs : a + 2 ≤ f.size) (hv : -32768 ≤ v ∧ v ≤ 32767)
    (A : Int) (hA : A = a) : f.i16 A = .ok v := by
  unfold Img.i16
  rw [f.rd_ok h (by rw [leN_length]; exact hs) A hA 2 (by rw [leN_length])]
  simp only [Out.ok_bind, Out.pure_eq]
  rw [rdN_leN, Nat.mod_eq_of_lt (by simpa using toU_lt 16 v)]
  rw [ofU_toU 16 (by omega) v (by omega) (by omega)]

theorem Img.i32_ok {f : Img} {a : Nat} {v : Int} (h : Has f.mem a (le32 v)) (hs : a + 4 ≤ f.size) (hv : isI32 v)
    (A : Int) (hA : A = a) : f.i32 A = .ok v := by
  unfold Img.i32
  rw [f.rd_ok h (by simpa using hs) A hA 4 (by simp)]
  simp only [Out.ok_bind, Out.pure_eq]
  unfold le32 isI32 INT_MIN INT_MAX at *
  rw [rdN_leN, Nat.mod_eq_of_lt (by simpa using toU_lt 32 v)]
  rw [ofU_toU 32 (by omega) v (by omega) (by omega)]

theorem slice_str {f : Img} {a : Nat} {s : BStr} (h : Has f.mem a (s ++ [0])) (hs : a + s.length + 1 ≤ f.size) :
    ∃ rest, slice f.mem a (f.size - a) = s ++ 0 :: rest := by
  obtain ⟨k, hk⟩ : ∃ k, f.size - a = (s ++ [0]).length + k :=
    ⟨f.size - a - s.length - 1, by simp only [List.length_append, List.length_singleton]; omega⟩
  refine ⟨slice f.mem (a + (s ++ [0]).length) k, ?_⟩
  rw [hk, slice_add, h, List.append_assoc]; rfl

theorem Img.str_ok {f : Img} {a : Nat} {s : BStr} (h : Has f.mem a (s ++ [0])) (hn : NoNul s) (hs : a + s.length + 1 ≤ f.size)
    (A : Int) (hA : A = a) : f.str A = .ok s := by
  subst hA
  unfold Img.str
  rw [if_pos (by omega)]
  simp only [Int.toNat_natCast]
  obtain ⟨rest, this⟩ := slice_str h hs
  have ht : (slice f.mem a (f.size - a)).takeWhile (· ≠ 0) = s := by
    rw [this]; exact takeWhile_stop _ _ _ _ (by simpa [NoNul] using hn) (by simp)
  rw [ht, if_neg]
  rw [slice_length]; omega

theorem Img.strnlen_ok {f : Img} {a : Nat} {s : BStr} (h : Has f.mem a (s ++ [0])) (hn : NoNul s) (hs : a + s.length + 1 ≤ f.size)
    (A : Int) (hA : A = a) (max : Nat) (hm : s.length < max) : f.strnlen A max = .ok s.length := by
  subst hA
  unfold Img.strnlen
  rw [if_pos (by omega)]
  simp only [Int.toNat_natCast]
  obtain ⟨rest, this⟩ := slice_str h hs
  obtain ⟨k, rfl⟩ : ∃ k, max = s.length + (k + 1) := ⟨max - s.length - 1, by omega⟩
  have hk : (slice f.mem a (f.size - a)).take (s.length + (k + 1)) = s ++ 0 :: rest.take k := by
    rw [this, List.take_length_add_append, List.take_succ_cons]
  have ht : (s ++ 0 :: rest.take k).takeWhile (· ≠ 0) = s :=
    takeWhile_stop _ _ _ _ (by simpa [NoNul] using hn) (by simp)
  simp only [hk, ht]
  rw [if_pos]
  simp only [List.length_append, List.length_cons]; omega

/-! ### alignment -/

theorem aa_ge (p : Nat) : p ≤ aa p := by unfold aa; omega
theorem aa_lt (p : Nat) : aa p < p + 4 := by unfold aa; omega
theorem aa_mod (p : Nat) : aa p % 4 = 0 := by unfold aa; omega
theorem aa_of_mod {p : Nat} (h : p % 4 = 0) : aa p = p := by unfold aa; omega
theorem aa8_ge (p : Nat) : p ≤ aa8 p := by unfold aa8; omega
theorem aa8_lt (p : Nat) : aa8 p < p + 8 := by unfold aa8; omega
theorem aa8_mod (p : Nat) : aa8 p % 8 = 0 := by unfold aa8; omega
theorem aaI_cast (p : Nat) : aaI (p : Int) = (aa p : Nat) := by unfold aaI aa; omega
theorem aa8I_cast (p : Nat) : aa8I (p : Int) = (aa8 p : Nat) := by unfold aa8I aa8; omega

/-! ### writing -/

theorem put_eq {limit : Nat} {m : Mem} {a : Nat} {bs : List UInt8} (h : a + bs.length ≤ limit) : put limit m a bs = .ok (memPut m a bs) := by
  unfold put; rw [if_pos h]

theorem put_ok {limit : Nat} {m m' : Mem} {a : Nat} {bs : List UInt8} (h : put limit m a bs = .ok m') :
    m' = memPut m a bs ∧ a + bs.length ≤ limit := by
  unfold put at h
  split at h
  · next hl => exact ⟨(Out.ok.inj h).symm, hl⟩
  · cases h

theorem Out.bind_eq_ok {α β : Type} {x : Out α} {g : α → Out β} {b : β} (h : (x >>= g) = .ok b) : ∃ a, x = .ok a ∧ g a = .ok b := by
  cases x with
  | ok a => exact ⟨a, rfl, h⟩
  | fail => cases h
  | ub => cases h

theorem Out.obind_eq_ok {α β : Type} {x : Out α} {g : α → Out β} {b : β} (h : x.bind g = .ok b) : ∃ a, x = .ok a ∧ g a = .ok b := by
  cases x with
  | ok a => exact ⟨a, rfl, h⟩
  | fail => cases h
  | ub => cases h

end BX
