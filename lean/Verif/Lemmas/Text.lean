import Verif.Model.Text
import Verif.Spec.Text
namespace BX
open Spec

def valFrom (x : Nat) (ds : CStr) : Nat := ds.foldl (fun x c => x * 10 + digVal c) x

@[simp] theorem valFrom_nil (x : Nat) : valFrom x [] = x := rfl
@[simp] theorem valFrom_cons (x : Nat) (c : Char) (ds : CStr) : valFrom x (c :: ds) = valFrom (x * 10 + digVal c) ds := by
  simp only [valFrom, List.foldl_cons]

theorem valFrom_eq (x : Nat) (ds : CStr) : valFrom x ds = x * 10 ^ ds.length + digitsValue ds := by
  induction ds generalizing x with
  | nil => simp [digitsValue]
  | cons c cs ih =>
    simp only [valFrom_cons, ih, digitsValue, List.length_cons, Nat.pow_succ, digVal]
    rw [Nat.add_mul, Nat.mul_assoc, Nat.mul_comm 10]; omega

theorem valFrom_append (x : Nat) (as bs : CStr) : valFrom x (as ++ bs) = valFrom (valFrom x as) bs := by
  simp [valFrom, List.foldl_append]

theorem valFrom_le (x : Nat) (ds : CStr) : x ≤ valFrom x ds := by
  rw [valFrom_eq]
  have : 1 ≤ 10 ^ ds.length := Nat.one_le_pow _ _ (by omega)
  have := Nat.mul_le_mul_left x this
  omega

theorem digitsValue_append (as bs : CStr) : digitsValue (as ++ bs) = digitsValue as * 10 ^ bs.length + digitsValue bs := by
  have h1 := valFrom_eq 0 (as ++ bs)
  have h2 := valFrom_eq 0 as
  have h3 := valFrom_eq (valFrom 0 as) bs
  rw [valFrom_append, h3, h2] at h1
  simpa using h1.symm

theorem toNat_digChar {n : Nat} (h : n < 10) : (digChar n).toNat = 48 + n := by
  unfold digChar
  have : ∀ k < 10, (Char.ofNat (48 + k)).toNat = 48 + k := by decide
  exact this n h
theorem digVal_digChar {n : Nat} (h : n < 10) : digVal (digChar n) = n := by
  unfold digVal; rw [toNat_digChar h]; omega
theorem isDig_digChar {n : Nat} (h : n < 10) : isDig (digChar n) = true := by
  have : ∀ k < 10, isDig (digChar k) = true := by decide
  exact this n h

theorem dec_ne_nil (n : Nat) : dec n ≠ [] := by
  rw [dec]; split <;> simp

theorem dec_digits (n : Nat) : ∀ c ∈ dec n, isDig c = true := by
  fun_induction dec n with
  | case1 n h => intro c hc; simp at hc; subst hc; exact isDig_digChar h
  | case2 n h ih =>
    intro c hc
    rcases List.mem_append.mp hc with hc | hc
    · exact ih c hc
    · simp at hc; subst hc; exact isDig_digChar (by omega)

theorem dec_Digits (n : Nat) : Digits (dec n) := ⟨dec_ne_nil n, dec_digits n⟩

theorem dec_value (n : Nat) : digitsValue (dec n) = n := by
  fun_induction dec n with
  | case1 n h => simp [digitsValue, toNat_digChar h]
  | case2 n h ih =>
    rw [digitsValue_append, ih]
    simp [digitsValue, toNat_digChar (show n % 10 < 10 by omega)]
    omega

theorem valFrom_dec (n : Nat) : valFrom 0 (dec n) = n := by rw [valFrom_eq, dec_value]; omega

theorem dec_length_le (n k : Nat) (hk : 0 < k) (h : n < 10 ^ k) : (dec n).length ≤ k := by
  fun_induction dec n generalizing k with
  | case1 n h => simp; omega
  | case2 n h10 ih =>
    obtain ⟨m, rfl⟩ : ∃ m, k = m + 1 := ⟨k - 1, by omega⟩
    simp only [List.length_append, List.length_cons, List.length_nil]
    have hm : 0 < m := by
      rcases Nat.eq_zero_or_pos m with rfl | h'
      · simp at h; omega
      · exact h'
    have := ih m hm (by rw [Nat.pow_succ] at h; omega)
    omega

theorem dec_length_ge (n k : Nat) (h : 10 ^ k ≤ n) : k + 1 ≤ (dec n).length := by
  fun_induction dec n generalizing k with
  | case1 n h' =>
    cases k with
    | zero => simp
    | succ k => have : 10 ^ k ≥ 1 := Nat.one_le_pow _ _ (by omega)
                rw [Nat.pow_succ] at h; omega
  | case2 n h10 ih =>
    cases k with
    | zero => simp
    | succ k =>
      have := ih k (by rw [Nat.pow_succ] at h; omega)
      simp; omega

theorem dec_no_leading_zero (n : Nat) : ∀ r, dec n = '0' :: r → r = [] := by
  fun_induction dec n with
  | case1 n h => intro r hr; simp at hr; exact hr.2
  | case2 n h ih =>
    intro r hr
    cases hd : dec (n / 10) with
    | nil => exact absurd hd (dec_ne_nil _)
    | cons c cs =>
      rw [hd] at hr ih
      simp only [List.cons_append, List.cons.injEq] at hr
      obtain ⟨rfl, hr⟩ := hr
      have hcs := ih cs rfl
      subst hcs
      have := dec_value (n/10)
      rw [hd] at this
      simp [digitsValue] at this
      omega

theorem isDig_not_space {c : Char} (h : isDig c = true) : isSpace c = false := by
  have h1 : '0'.toNat ≤ c.toNat ∧ c.toNat ≤ '9'.toNat := by simpa [isDig] using h
  cases hs : isSpace c with
  | false => rfl
  | true =>
    simp only [isSpace, Bool.or_eq_true, beq_iff_eq] at hs
    rcases hs with ((((rfl | rfl) | rfl) | rfl) | rfl) | rfl <;> revert h1 <;> decide

theorem isDig_ne_dash {c : Char} (h : isDig c = true) : c ≠ '-' := by rintro rfl; revert h; decide

theorem skipSpaces_append {s p : CStr} (hs : Spaces s) (hp : isSpace (peek p) = false ∨ p = []) :
    skipSpaces (s ++ p) = p := by
  induction s with
  | nil =>
    cases p with
    | nil => rfl
    | cons c cs =>
      rcases hp with hp | hp
      · have hc : isSpace c = false := hp
        simp [skipSpaces, hc]
      · cases hp
  | cons c cs ih =>
    have : isSpace c = true := hs c (by simp)
    simp only [List.cons_append, skipSpaces, this, if_true]
    exact ih (fun x hx => hs x (by simp [hx]))

theorem skipSpaces_decomp (p : CStr) : ∃ s, Spaces s ∧ p = s ++ skipSpaces p ∧ 
    (isSpace (peek (skipSpaces p)) = false) := by
  induction p with
  | nil => exact ⟨[], by intro c hc; simp at hc, rfl, by decide⟩
  | cons c cs ih =>
    by_cases hc : isSpace c = true
    · obtain ⟨s, h1, h2, h3⟩ := ih
      refine ⟨c :: s, ?_, ?_, ?_⟩
      · intro x hx; rcases List.mem_cons.mp hx with rfl | hx
        · exact hc
        · exact h1 x hx
      · simp only [skipSpaces, hc, if_true, List.cons_append, ← h2]
      · simpa [skipSpaces, hc] using h3
    · simp only [Bool.not_eq_true] at hc
      refine ⟨[], by intro c hc; simp at hc, ?_, ?_⟩
      · simp [skipSpaces, hc]
      · simp [skipSpaces, hc, peek]

/-- the digit loop on a maximal digit run -/
theorem scanDigits_run (lim : Nat) (x : Nat) (ds rest : CStr) (hd : ∀ c ∈ ds, isDig c = true) (hr : NoDigit rest)
    (hx : x ≤ lim) :
    scanDigits lim x (ds ++ rest) = if valFrom x ds ≤ lim then .ok (valFrom x ds, rest) else .ub := by
  induction ds generalizing x with
  | nil =>
    rw [List.nil_append, valFrom_nil, if_pos hx]
    cases rest with
    | nil => rfl
    | cons c cs =>
      have : isDig c = false := hr
      simp [scanDigits, this]
  | cons c cs ih =>
    have hc : isDig c = true := hd c (by simp)
    simp only [List.cons_append, scanDigits, hc, if_true, valFrom_cons]
    split
    · rename_i h
      exact ih _ (fun y hy => hd y (by simp [hy])) h
    · rename_i h
      rw [if_neg]
      have := valFrom_le (x * 10 + digVal c) cs
      omega

theorem scanDigitsU_run (x : Nat) (ds rest : CStr) (hd : ∀ c ∈ ds, isDig c = true) (hr : NoDigit rest)
    (hx : x < 2 ^ 64) :
    scanDigitsU x (ds ++ rest) = (valFrom x ds % 2 ^ 64, rest) := by
  induction ds generalizing x with
  | nil =>
    simp only [List.nil_append, valFrom_nil, Nat.mod_eq_of_lt hx]
    cases rest with
    | nil => rfl
    | cons c cs =>
      have : isDig c = false := hr
      simp [scanDigitsU, this]
  | cons c cs ih =>
    have hc : isDig c = true := hd c (by simp)
    simp only [List.cons_append, scanDigitsU, hc, if_true, valFrom_cons]
    rw [ih _ (fun y hy => hd y (by simp [hy])) (Nat.mod_lt _ (by omega))]
    congr 1
    rw [valFrom_eq, valFrom_eq]
    simp [Nat.add_mod, Nat.mul_mod]

theorem digits_split (p : CStr) : p = p.takeWhile isDig ++ p.dropWhile isDig ∧ (∀ c ∈ p.takeWhile isDig, isDig c = true) ∧
    NoDigit (p.dropWhile isDig) := by
  refine ⟨List.takeWhile_append_dropWhile.symm, ?_, ?_⟩
  · intro c hc
    induction p with
    | nil => simp at hc
    | cons a as ih =>
      by_cases ha : isDig a = true
      · simp only [List.takeWhile_cons, ha, if_true, List.mem_cons] at hc
        rcases hc with rfl | hc
        · exact ha
        · exact ih hc
      · simp [List.takeWhile_cons, ha] at hc
  · induction p with
    | nil => decide
    | cons a as ih =>
      by_cases ha : isDig a = true
      · simpa [List.dropWhile_cons, ha] using ih
      · simp only [Bool.not_eq_true] at ha
        simp [List.dropWhile_cons, ha, NoDigit, peek]

/-- main characterisation of the signed scanner -/
theorem scanSigned_run (lim : Nat) (s ds rest : CStr) (neg : Bool) (hs : Spaces s) (hd : Digits ds) (hr : NoDigit rest) :
    scanSigned lim (s ++ (if neg then ['-'] else []) ++ ds ++ rest) =
      if digitsValue ds ≤ lim then .ok (if neg then -(digitsValue ds : Int) else digitsValue ds, rest) else .ub := by
  obtain ⟨c, cs, rfl⟩ : ∃ c cs, ds = c :: cs := by
    cases ds with
    | nil => exact absurd rfl hd.1
    | cons c cs => exact ⟨c, cs, rfl⟩
  have hc : isDig c = true := hd.2 c (by simp)
  have hv : valFrom 0 (c :: cs) = digitsValue (c :: cs) := by rw [valFrom_eq]; omega
  have hrun := scanDigits_run lim 0 (c :: cs) rest hd.2 hr (Nat.zero_le _)
  rw [hv] at hrun
  cases neg with
  | true =>
    simp only [if_true, scanSigned, List.append_assoc]
    rw [skipSpaces_append hs (.inl (by show isSpace '-' = false; decide))]
    simp only [List.cons_append, List.nil_append, peek, List.headD_cons, beq_self_eq_true, List.tail_cons, hc, if_true]
    rw [show scanDigits lim 0 (c :: (cs ++ rest)) = _ from hrun]
    split <;> simp
  | false =>
    simp only [Bool.false_eq_true, if_false, scanSigned, List.append_assoc, List.nil_append]
    rw [skipSpaces_append hs (.inl (by show isSpace c = false; exact isDig_not_space hc))]
    have : (c == '-') = false := by simpa using isDig_ne_dash hc
    simp only [List.cons_append, peek, List.headD_cons, this, Bool.false_eq_true, if_false, hc, if_true]
    rw [show scanDigits lim 0 (c :: (cs ++ rest)) = _ from hrun]
    split <;> simp

/-- every text that does not start with a number is rejected by the signed scanner, and conversely -/
theorem scanSigned_ok_or_fail (lim : Nat) (p : CStr) :
    scanSigned lim p = .fail ∨ ∃ (s : CStr) (neg : Bool) (ds rest : CStr), Spaces s ∧ Digits ds ∧ NoDigit rest ∧
      p = s ++ (if neg then ['-'] else []) ++ ds ++ rest := by
  obtain ⟨s, h1, h2, h3⟩ := skipSpaces_decomp p
  by_cases hf : scanSigned lim p = .fail
  · exact .inl hf
  right
  let q := skipSpaces p
  let neg := peek q == '-'
  let p1 := if neg then q.tail else q
  have hd : isDig (peek p1) = true := by
    cases hh : isDig (peek p1) with
    | true => rfl
    | false =>
      exfalso; apply hf
      unfold scanSigned
      dsimp only
      rw [show (isDig (peek (if (peek (skipSpaces p) == '-') = true then (skipSpaces p).tail else skipSpaces p))) = false from hh]
      rfl
  obtain ⟨e1, e2, e3⟩ := digits_split p1
  refine ⟨s, neg, p1.takeWhile isDig, p1.dropWhile isDig, h1, ⟨?_, e2⟩, e3, ?_⟩
  · cases hp : p1 with
    | nil => rw [hp] at hd; revert hd; decide
    | cons a as =>
      rw [hp] at hd
      have : isDig a = true := hd
      simp [List.takeWhile_cons, this]
  · conv => lhs; rw [h2]
    rw [List.append_assoc, List.append_assoc, ← e1]
    congr 1
    show q = _
    by_cases hn : neg = true
    · rw [if_pos hn]
      show q = ['-'] ++ (if neg = true then q.tail else q)
      rw [if_pos hn]
      cases hq : q with
      | nil => have : neg = (peek q == '-') := rfl
               rw [this, hq] at hn; revert hn; decide
      | cons a as =>
        have : neg = (peek q == '-') := rfl
        rw [this, hq] at hn
        simp [peek] at hn
        simp [hn]
    · rw [if_neg hn]
      show q = [] ++ (if neg = true then q.tail else q)
      rw [if_neg hn]; rfl

end BX
