import Verif.Props.Utils
import Verif.Model.Scan
import Verif.Spec.Scan
import Verif.Lemmas.Image
/-
C78: the scanners of texts. The statements are about texts as lists of characters, and about the meaning of numerals (Spec/Text.lean, Spec/Scan.lean).
-/
namespace BX
open Spec

/-! ### helpers -/

theorem hexVal_char (c : Char) (d : Nat) : hexVal c = some d ↔ HexChar c d := by
  unfold hexVal HexChar
  simp only [show '0'.toNat = 48 from rfl, show '9'.toNat = 57 from rfl, show 'a'.toNat = 97 from rfl, show 'f'.toNat = 102 from rfl, show 'A'.toNat = 65 from rfl, show 'F'.toNat = 70 from rfl]
  split
  · simp only [Option.some.injEq]; omega
  · split
    · simp only [Option.some.injEq]; omega
    · split
      · simp only [Option.some.injEq]; omega
      · simp only [reduceCtorEq, false_iff]; omega

theorem hexVal_none (c : Char) : hexVal c = none ↔ ¬ ∃ d, HexChar c d := by
  cases h : hexVal c with
  | none => simp only [true_iff]; rintro ⟨d, hd⟩; rw [(hexVal_char c d).2 hd] at h; cases h
  | some d => simp only [reduceCtorEq, false_iff, Classical.not_not]; exact ⟨d, (hexVal_char c d).1 h⟩

theorem hexChar_lt {c : Char} {d : Nat} (h : HexChar c d) : d < 16 ∧ c.toNat ≤ d + 87 := by
  unfold HexChar at h; omega

/-- one step of `GetInt` -/
theorem getHex_step {c : Char} {d : Nat} (h : HexChar c d) (x : Int) (p : CStr) (hx : 0 ≤ x) (hs : x * 16 + d + 87 < 2147483648) : getHexLoop x (c :: p) = getHexLoop (x * 16 + d) p := by
  rw [getHexLoop]
  have hd := hexChar_lt h
  have e1 : shl4 x = .ok (x * 16) := by unfold shl4; rw [if_neg (by omega), if_pos (by omega)]
  have e2 : ∀ a b : Int, -2147483648 ≤ a + b → a + b ≤ 2147483647 → addInt a b = .ok (a + b) := fun a b u v => by unfold addInt; rw [if_pos ⟨u, v⟩]
  have h' := h
  unfold HexChar at h'
  by_cases c1 : 48 ≤ (c.toNat : Int) ∧ (c.toNat : Int) ≤ 57
  · rw [if_pos c1, e1, Out.ok_bind, e2 _ _ (by omega) (by omega), Out.ok_bind, e2 _ _ (by omega) (by omega), Out.ok_bind, show x * 16 + (c.toNat : Int) + -48 = x * 16 + d by omega]
  · rw [if_neg c1]
    by_cases c2 : 65 ≤ (c.toNat : Int) ∧ (c.toNat : Int) ≤ 70
    · rw [if_pos c2, e1, Out.ok_bind, e2 _ _ (by omega) (by omega), Out.ok_bind, e2 _ _ (by omega) (by omega), Out.ok_bind, e2 _ _ (by omega) (by omega), Out.ok_bind,
        show x * 16 + (c.toNat : Int) + -65 + 10 = x * 16 + d by omega]
    · rw [if_neg c2, if_pos (by omega), e1, Out.ok_bind, e2 _ _ (by omega) (by omega), Out.ok_bind, e2 _ _ (by omega) (by omega), Out.ok_bind, e2 _ _ (by omega) (by omega), Out.ok_bind,
        show x * 16 + (c.toNat : Int) + -97 + 10 = x * 16 + d by omega]

theorem getHex_stop {rest : CStr} (h : NoHex rest) (x : Int) : getHexLoop x rest = .ok x := by
  cases rest with
  | nil => rfl
  | cons c p =>
    have := h c p rfl
    have h1 : ¬ (48 ≤ (c.toNat : Int) ∧ (c.toNat : Int) ≤ 57) := fun hc => this ⟨_, Or.inl ⟨by omega, by omega, rfl⟩⟩
    have h2 : ¬ (65 ≤ (c.toNat : Int) ∧ (c.toNat : Int) ≤ 70) := fun hc => this ⟨_, Or.inr (Or.inl ⟨by omega, by omega, rfl⟩)⟩
    have h3 : ¬ (97 ≤ (c.toNat : Int) ∧ (c.toNat : Int) ≤ 102) := fun hc => this ⟨_, Or.inr (Or.inr ⟨by omega, by omega, rfl⟩)⟩
    rw [getHexLoop]
    simp only [if_neg h1, if_neg h2, if_neg h3]

theorem getHex_run {h : CStr} {n : Nat} (hh : HexNum h n) {rest : CStr} (hr : NoHex rest) : ∀ x : Nat, x * 16 ^ h.length + n + 87 < 2147483648 → getHexLoop x (h ++ rest) = .ok ((x * 16 ^ h.length + n : Nat) : Int) := by
  induction hh with
  | nil => intro x _; simpa using getHex_stop hr x
  | @cons c d s v hd hs ih =>
    intro x hx
    simp only [List.length_cons, Nat.pow_succ] at hx ⊢
    have hp : 1 ≤ 16 ^ s.length := Nat.pow_pos (by omega)
    have e1 : x * (16 ^ s.length * 16) = x * 16 * 16 ^ s.length := by rw [Nat.mul_comm (16 ^ s.length), Nat.mul_assoc]
    have e2 : x * 16 * 16 ^ s.length + d * 16 ^ s.length = (x * 16 + d) * 16 ^ s.length := by rw [Nat.add_mul]
    have h3 : x * 16 + d ≤ (x * 16 + d) * 16 ^ s.length := Nat.le_mul_of_pos_right _ hp
    rw [List.cons_append, getHex_step hd x (s ++ rest) (by omega) (by omega)]
    have := ih (x * 16 + d) (by omega)
    rw [show ((x * 16 + d : Nat) : Int) = (x : Int) * 16 + d by simp] at this
    rw [this]
    congr 2
    omega

theorem scanHexU_text {h : CStr} {n : Nat} (hh : HexNum h n) {rest : CStr} (hr : NoHex rest) : ∀ x : Nat, scanHexU x (h ++ rest) = ((x * 16 ^ h.length + n) % 2 ^ 64, rest) ∨ (h = [] ∧ scanHexU x (h ++ rest) = (x, rest)) := by
  have stop : ∀ x, scanHexU x rest = (x, rest) := by
    intro x
    cases rest with
    | nil => rfl
    | cons c p => rw [scanHexU, (hexVal_none c).2 (hr c p rfl)]
  induction hh with
  | nil => intro x; right; exact ⟨rfl, stop x⟩
  | @cons c d s v hd hs ih =>
    intro x
    left
    rw [List.cons_append, scanHexU, (hexVal_char c d).2 hd]
    simp only [List.length_cons, Nat.pow_succ]
    have e1 : x * (16 ^ s.length * 16) = x * 16 * 16 ^ s.length := by rw [Nat.mul_comm (16 ^ s.length), Nat.mul_assoc]
    have e2 : x * 16 * 16 ^ s.length + d * 16 ^ s.length = (x * 16 + d) * 16 ^ s.length := by rw [Nat.add_mul]
    have e3 : x * (16 ^ s.length * 16) + (d * 16 ^ s.length + v) = (x * 16 + d) * 16 ^ s.length + v := by omega
    rw [e3]
    rcases ih ((x * 16 + d) % 2 ^ 64) with h1 | ⟨rfl, h1⟩
    · rw [h1, Nat.add_mod, Nat.mul_mod, Nat.mod_mod, ← Nat.mul_mod, ← Nat.add_mod]
    · cases hs
      rw [h1]
      simp

theorem hexText_head {h : CStr} {n : Nat} (hh : HexNum h n) (hne : h ≠ []) (rest : CStr) : (hexVal (peek (h ++ rest))).isSome = true := by
  cases hh with
  | nil => exact absurd rfl hne
  | @cons c d s v hd _ => show (hexVal c).isSome = true; rw [(hexVal_char _ _).2 hd]; rfl

/-! ### C78 -/

/-- C78: `EatEnd` answers true exactly for a text that ends with the given end; then that end is removed, otherwise the text stays. -/
theorem C78_eatEnd (p e : CStr) : (∀ b, p = b ++ e → eatEnd p e = (true, b)) ∧ ((¬ ∃ b, p = b ++ e) → eatEnd p e = (false, p)) := by
  constructor
  · rintro b rfl
    unfold eatEnd
    rw [if_neg (by simp), if_neg (by simp)]
    simp
  · intro h
    unfold eatEnd
    split
    · rfl
    · split
      · rfl
      · rename_i h1 h2
        exact absurd ⟨p.take (p.length - e.length), by rw [Classical.not_not] at h2; exact (by rw [h2] : p.take (p.length - e.length) ++ p.drop (p.length - e.length) = p.take (p.length - e.length) ++ e) ▸ (List.take_append_drop _ _).symm⟩ h

/-- C78: `Scan` answers true exactly if the text continues, after blanks, with the given one; then the cursor stands behind it, otherwise behind the blanks. -/
theorem C78_scan (p beg : CStr) : ∃ s q, Spaces s ∧ p = s ++ q ∧ isSpace (peek q) = false ∧ (∀ r, q = beg ++ r → scan p beg = (true, r)) ∧ ((¬ ∃ r, q = beg ++ r) → scan p beg = (false, q)) := by
  obtain ⟨s, h1, h2, h3⟩ := skipSpaces_decomp p
  have key : ∀ beg q : CStr, (∀ r, q = beg ++ r → scanLoop q beg = some r) ∧ ((¬ ∃ r, q = beg ++ r) → scanLoop q beg = none) := by
    intro beg
    induction beg with
    | nil => intro q; exact ⟨by intro r h; rw [h]; cases r <;> rfl, fun h => absurd ⟨q, rfl⟩ h⟩
    | cons b beg ih =>
      intro q
      cases q with
      | nil => exact ⟨fun r h => by simp at h, fun _ => rfl⟩
      | cons c q =>
        constructor
        · intro r h
          simp only [List.cons_append, List.cons.injEq] at h
          rw [scanLoop, if_pos h.1]; exact (ih q).1 r h.2
        · intro h
          rw [scanLoop]
          split
          · rename_i hc
            exact (ih q).2 fun ⟨r, hr⟩ => h ⟨r, by rw [hc, hr]; rfl⟩
          · rfl
  refine ⟨s, skipSpaces p, h1, h2, h3, fun r h => ?_, fun h => ?_⟩
  · unfold scan; simp only; rw [(key beg _).1 r h]
  · unfold scan; simp only; rw [(key beg _).2 h]

/-- C78: `SkipLine` goes behind the next line feed, or to the end of a text without one, and says which. -/
theorem C78_skipLine (line rest : CStr) (h : '\n' ∉ line) : skipLine (line ++ '\n' :: rest) = (true, rest) ∧ skipLine line = (false, []) := by
  induction line with
  | nil => exact ⟨rfl, rfl⟩
  | cons c l ih =>
    have hc : c ≠ '\n' := fun e => h (by simp [e])
    have := ih (fun hm => h (by simp [hm]))
    rw [List.cons_append, skipLine, skipLine, if_neg hc, if_neg hc]
    exact this

/-- C78: `Go` goes behind the next separator, or to the end of a text without one, and says which. -/
theorem C78_go (sep : Char) (field rest : CStr) (h : sep ∉ field) : go sep (field ++ sep :: rest) = (true, rest) ∧ go sep field = (false, []) := by
  induction field with
  | nil => exact ⟨by rw [List.nil_append, go, if_pos rfl], rfl⟩
  | cons c l ih =>
    have hc : c ≠ sep := fun e => h (by simp [e])
    have := ih (fun hm => h (by simp [hm]))
    rw [List.cons_append, go, go, if_neg hc, if_neg hc]
    exact this

/-- `n` calls of `Go` -/
def goTimes (sep : Char) : Nat → CStr → List Bool × CStr
  | 0, p => ([], p)
  | n+1, p => ((go sep p).1 :: (goTimes sep n (go sep p).2).1, (goTimes sep n (go sep p).2).2)

/-- C78: a loop with `Go` finds all separated fields, one after the other, and stops after the last one. -/
theorem C78_fields (sep : Char) (fields : List CStr) (last : CStr) (h : ∀ f ∈ fields, sep ∉ f) (hl : sep ∉ last) :
    (∀ i ≤ fields.length, goTimes sep i ((fields.map (· ++ [sep])).flatten ++ last) = (List.replicate i true, ((fields.drop i).map (· ++ [sep])).flatten ++ last)) ∧
    goTimes sep (fields.length + 1) ((fields.map (· ++ [sep])).flatten ++ last) = (List.replicate fields.length true ++ [false], []) := by
  induction fields with
  | nil =>
    refine ⟨fun i hi => ?_, ?_⟩
    · have : i = 0 := by simpa using hi
      subst this; rfl
    · simp [goTimes, (C78_go sep last [] hl).2]
  | cons f fs ih =>
    obtain ⟨h1, h2⟩ := ih (fun x hx => h x (by simp [hx]))
    have hg : go sep (((f :: fs).map (· ++ [sep])).flatten ++ last) = (true, (fs.map (· ++ [sep])).flatten ++ last) := by
      have := (C78_go sep f ((fs.map (· ++ [sep])).flatten ++ last) (h f (by simp))).1
      simpa using this
    refine ⟨fun i hi => ?_, ?_⟩
    · cases i with
      | zero => simp [goTimes]
      | succ i =>
        rw [goTimes, hg]
        simp only
        rw [h1 i (by simp at hi; omega)]
        simp [List.replicate_succ]
    · rw [List.length_cons, goTimes, hg]
      simp only
      rw [h2]
      simp [List.replicate_succ]

/-- C78: `ScanStrW` finds what `ScanStr` finds, for every separator but ASCII NUL. -/
theorem C78_same (p : CStr) (sep : Char) (size : Nat) (hs : sep ≠ '\x00') : scanStrW p sep size = scanStr p sep size := by
  unfold scanStrW scanStr
  simp only
  by_cases h : sep = ' '
  · simp only [if_pos h]
  · simp only [if_neg h]
    congr 1
    rw [scanStrLoop_spec]
    simp only
    rcases dropWhile_shape (· == sep) (skipSpaces p) with h1 | ⟨c, r, h1, h2⟩
    · rw [h1, if_neg (by intro e; exact hs e.symm)]; rfl
    · rw [h1]
      have : c = sep := by simpa using h2
      rw [if_pos (by simpa [peek] using this), if_neg (by simp)]

/-- C78: with the separator NUL, `ScanStrW` takes the rest of the text and stays in it (`ScanStr` leaves it, C20). -/
theorem C78_nul (p : CStr) (size : Nat) (hp : '\x00' ∉ p) : ∃ s q, Spaces s ∧ p = s ++ q ∧ isSpace (peek q) = false ∧ (scanStrW p '\x00' size).written = q.take (size - 1) ++ ['\x00'] ∧ (scanStrW p '\x00' size).rest = some [] := by
  obtain ⟨s, h1, h2, h3⟩ := skipSpaces_decomp p
  refine ⟨s, skipSpaces p, h1, h2, h3, ?_⟩
  have hq : ∀ c ∈ skipSpaces p, (!(c == '\x00')) = true := by
    intro c hc
    have : c ∈ p := by rw [h2]; simp [hc]
    simp; rintro rfl; exact hp this
  unfold scanStrW
  simp only [show ¬ '\x00' = ' ' by decide, if_false]
  rw [scanStrLoop_spec]
  simp only
  have e1 : ∀ l : CStr, (∀ c ∈ l, (!(c == '\x00')) = true) → l.takeWhile (fun c => !(c == '\x00')) = l ∧ l.dropWhile (fun c => !(c == '\x00')) = [] := by
    intro l hl
    induction l with
    | nil => simp
    | cons c l ih =>
      have hc := hl c (by simp)
      have := ih (fun x hx => hl x (by simp [hx]))
      rw [List.takeWhile_cons, List.dropWhile_cons, if_pos hc, if_pos hc, this.1, this.2]
      simp
  rw [(e1 _ hq).1, (e1 _ hq).2]
  simp

/-- C78: `ScanUInt64Hex` reads all hexadecimal digits; the value is that of the digits (modulo 2^64), and the cursor stands behind them. -/
theorem C78_hex64 (s h rest : CStr) (n : Nat) (hs : Spaces s) (hh : HexNum h n) (hne : h ≠ []) (hr : NoHex rest) : scanUInt64Hex (s ++ h ++ rest) = .ok (n % 2 ^ 64, rest) := by
  have hp := hexText_head hh hne rest
  have hns : isSpace (peek (h ++ rest)) = false := by
    cases hc : hexVal (peek (h ++ rest)) with
    | none => rw [hc] at hp; cases hp
    | some d =>
      have hd := (hexVal_char _ _).1 hc
      generalize peek (h ++ rest) = c at hd
      unfold HexChar at hd
      unfold isSpace
      have : ∀ k : Char, k.toNat < 48 → (c == k) = false := by
        intro k hk
        have : c ≠ k := by rintro rfl; omega
        simpa using this
      simp only [this ' ' (by decide), this '\t' (by decide), this '\n' (by decide), this '\x0b' (by decide), this '\x0c' (by decide), this '\r' (by decide), Bool.or_self]
  unfold scanUInt64Hex
  rw [List.append_assoc, skipSpaces_append hs (Or.inl hns)]
  simp only [hp, if_true]
  rcases scanHexU_text hh hr 0 with h1 | ⟨h1, -⟩
  · rw [h1]; simp
  · exact absurd h1 hne

/-- C78: a text that does not continue, after blanks, with a hexadecimal digit is refused. -/
theorem C78_hex64_refused (s q : CStr) (hs : Spaces s) (hq : isSpace (peek q) = false) (hr : NoHex q) : scanUInt64Hex (s ++ q) = .fail := by
  unfold scanUInt64Hex
  rw [skipSpaces_append hs (Or.inl hq)]
  have : hexVal (peek q) = none := by
    cases q with
    | nil => decide
    | cons c r => exact (hexVal_none c).2 (hr c r rfl)
  simp [this]

/-- `GetInt` for a text that does not start with `0x` -/
theorem getInt_dec {p q : CStr} (hq : q = if peek (skipSpaces p) == '-' then (skipSpaces p).tail else skipSpaces p) (hx : ¬ (cAt q 0 = '0' ∧ cAt q 1 = 'x')) :
    getInt (some p) = match scanInt p with | .ok r => .ok r.1 | .fail => .ok INT_NULL_VALUE | .ub => .ub := by
  unfold getInt scanInt scanSigned
  simp only
  rw [← hq, if_neg hx]
  by_cases hd : isDig (peek q) = true
  · rw [if_pos hd, if_pos hd]
    cases h : scanDigits 2147483647 0 q with
    | ok r =>
      simp only [Out.ok_bind, Out.bind]
      unfold negIf
      cases peek (skipSpaces p) == '-'
      · rfl
      · simp only [if_true]
        rw [if_neg (by omega)]
    | fail =>
      have : ∀ (x : Nat) (q : CStr), scanDigits 2147483647 x q ≠ .fail := by
        intro x q
        induction q generalizing x with
        | nil => simp [scanDigits]
        | cons c cs ih => rw [scanDigits]; split <;> (try split) <;> simp [ih]
      exact absurd h (this 0 q)
    | ub => rfl
  · rw [if_neg hd, if_neg hd]

/-- C78: `GetInt` gives the decimal number at the beginning of a text (after blanks), if it is greater than -2^31 and less than 2^31; a number outside is undefined behaviour. -/
theorem C78_decimal (w : CStr) (v : Int) (h : StartsDec w v) : getInt (some w) = if -2147483648 < v ∧ v < 2147483648 then .ok v else .ub := by
  obtain ⟨s, neg, ds, rest, h1, h2, h3, rfl, rfl, h5⟩ := h
  obtain ⟨c, cs, rfl⟩ : ∃ c cs, ds = c :: cs := by
    cases ds with
    | nil => exact absurd rfl h2.1
    | cons c cs => exact ⟨c, cs, rfl⟩
  have hc : isDig c = true := h2.2 c (by simp)
  have hq : ((c :: cs) ++ rest) = if peek (skipSpaces (s ++ (if neg then ['-'] else []) ++ (c :: cs) ++ rest)) == '-' then (skipSpaces (s ++ (if neg then ['-'] else []) ++ (c :: cs) ++ rest)).tail
      else skipSpaces (s ++ (if neg then ['-'] else []) ++ (c :: cs) ++ rest) := by
    cases neg with
    | true =>
      simp only [if_true, List.append_assoc]
      rw [skipSpaces_append h1 (.inl (by show isSpace '-' = false; decide))]
      rfl
    | false =>
      simp only [Bool.false_eq_true, if_false, List.append_assoc, List.nil_append]
      rw [skipSpaces_append h1 (.inl (by show isSpace c = false; exact isDig_not_space hc))]
      have : (c == '-') = false := by simpa using isDig_ne_dash hc
      simp only [List.cons_append, peek, List.headD_cons, this, Bool.false_eq_true, if_false]
  have hx : ¬ (cAt ((c :: cs) ++ rest) 0 = '0' ∧ cAt ((c :: cs) ++ rest) 1 = 'x') := by
    rintro ⟨a, b⟩
    replace a : c = '0' := a
    cases cs with
    | nil =>
      cases rest with
      | nil => exact absurd (show '\x00' = 'x' from b) (by decide)
      | cons d r => exact h5 ⟨by rw [a], by simpa [cAt] using b⟩
    | cons d cs =>
      have b : d = 'x' := b
      have := h2.2 d (by simp)
      rw [b] at this
      exact absurd this (by decide)
  rw [getInt_dec hq hx]
  unfold scanInt
  rw [scanSigned_run 2147483647 s (c :: cs) rest neg h1 h2 h3]
  by_cases hv : digitsValue (c :: cs) ≤ 2147483647
  · rw [if_pos hv]
    cases neg
    · simp only [Bool.false_eq_true, if_false]; rw [if_pos (by omega)]
    · simp only [if_true]; rw [if_pos (by omega)]
  · rw [if_neg hv]
    cases neg
    · simp only [Bool.false_eq_true, if_false]; rw [if_neg (by omega)]
    · simp only [if_true]; rw [if_neg (by omega)]

/-- the part of a text that `GetInt` reads -/
theorem getInt_hex {s q : CStr} {neg : Bool} (hs : Spaces s) : getInt (some (s ++ (if neg then ['-'] else []) ++ '0' :: 'x' :: q)) =
    if (hexVal (peek q)).isSome then getHexLoop 0 q >>= negIf neg else .ok INT_NULL_VALUE := by
  unfold getInt
  cases neg with
  | true =>
    simp only [if_true, List.append_assoc]
    rw [skipSpaces_append hs (.inl (by show isSpace '-' = false; decide))]
    rfl
  | false =>
    simp only [Bool.false_eq_true, if_false, List.append_assoc, List.nil_append]
    rw [skipSpaces_append hs (.inl (by show isSpace '0' = false; decide))]
    rfl

/-- C78: `GetInt` gives the hexadecimal number after `0x` (with its sign), if it is less than 2^31 - 87. -/
theorem C78_hex_partial (w : CStr) (neg : Bool) (n : Nat) (h : StartsHex w neg n) (hn : n + 87 < 2147483648) : getInt (some w) = .ok (if neg then -(n : Int) else n) := by
  obtain ⟨s, hx, rest, h1, h2, h3, h4, rfl⟩ := h
  rw [show s ++ (if neg then ['-'] else []) ++ '0' :: 'x' :: hx ++ rest = s ++ (if neg then ['-'] else []) ++ '0' :: 'x' :: (hx ++ rest) by simp, getInt_hex h1, hexText_head h2 h3 rest, if_pos rfl]
  have := getHex_run h2 h4 0 (by omega)
  rw [Nat.zero_mul, Nat.zero_add] at this
  rw [show (0 : Int) = ((0 : Nat) : Int) from rfl, this, Out.ok_bind]
  unfold negIf
  cases neg
  · rfl
  · simp only [if_true]; rw [if_neg (by omega)]

/-- C78: no text, and a text that does not start with a number, give the null value. -/
theorem C78_none (s q : CStr) (neg : Bool) (hs : Spaces s) (hq : NoDigit q) (hb : isSpace (peek q) = false) (hd : neg = false → peek q ≠ '-') :
    getInt none = .ok INT_NULL_VALUE ∧ getInt (some (s ++ (if neg then ['-'] else []) ++ q)) = .ok INT_NULL_VALUE := by
  refine ⟨rfl, ?_⟩
  unfold NoDigit at hq
  have h0 : cAt q 0 = peek q := by cases q <;> rfl
  have hx : ¬ (cAt q 0 = '0' ∧ cAt q 1 = 'x') := by
    rintro ⟨a, -⟩
    rw [← h0, a] at hq
    exact absurd hq (by decide)
  have hq' : q = if peek (skipSpaces (s ++ (if neg then ['-'] else []) ++ q)) == '-' then (skipSpaces (s ++ (if neg then ['-'] else []) ++ q)).tail else skipSpaces (s ++ (if neg then ['-'] else []) ++ q) := by
    cases neg with
    | true =>
      simp only [if_true, List.append_assoc]
      rw [skipSpaces_append hs (.inl (by show isSpace '-' = false; decide))]
      rfl
    | false =>
      simp only [Bool.false_eq_true, if_false, List.append_nil]
      rw [skipSpaces_append hs (.inl hb)]
      have : (peek q == '-') = false := by simpa using hd rfl
      rw [this]; rfl
  rw [getInt_dec hq' hx]
  unfold scanInt scanSigned
  simp only
  rw [← hq', if_neg (by rw [hq]; simp)]

/-- C78 is false for hexadecimal numbers up to 2^31 - 1: the sum with the character overflows (undefined behaviour). -/
theorem C78_hex_overflow_false : StartsHex "0x7fffffff".toList false 2147483647 ∧ getInt (some "0x7fffffff".toList) = .ub := by
  refine ⟨⟨[], "7fffffff".toList, [], by decide, ?_, by decide, (by intro c r h; cases h), by decide⟩, by decide +kernel⟩
  have f : HexChar 'f' 15 := Or.inr (Or.inr (by decide))
  have := HexNum.cons (c := '7') (d := 7) (Or.inl (by decide)) (.cons f (.cons f (.cons f (.cons f (.cons f (.cons f (.cons f .nil)))))))
  exact this

/-- C78 is false for greater hexadecimal numbers: they give negative numbers, and one of them the null value as if there was no number. -/
theorem C78_hex_negative_false : getInt (some "0xffffffff".toList) = .ok (-1) ∧ getInt (some "0x80000000".toList) = .ok INT_NULL_VALUE ∧ getInt (some "-0x80000000".toList) = .ub := by decide +kernel

/-- the hypotheses are met -/
example : getInt (some " -12a".toList) = .ok (-12) := by
  rw [C78_decimal " -12a".toList (-12) ⟨[' '], true, ['1', '2'], ['a'], by decide, by decide, by decide, by decide, by decide, by decide⟩]; rfl
example : getInt (some "-0x1F,".toList) = .ok (-31) := by
  have := HexNum.cons (c := '1') (d := 1) (Or.inl (by decide)) (.cons (c := 'F') (d := 15) (Or.inr (Or.inl (by decide))) .nil)
  refine C78_hex_partial _ true 31 ⟨[], ['1', 'F'], [','], by decide, this, by decide, ?_, by decide⟩ (by decide)
  intro c r h
  cases h
  rw [← hexVal_none]; decide
example : getInt (some "x1".toList) = .ok INT_NULL_VALUE := (C78_none [] "x1".toList false (by decide) (by decide) (by decide) (by decide)).2
example : goTimes ',' 3 "ab,,c".toList = ([true, true, false], []) := (C78_fields ',' ["ab".toList, []] "c".toList (by decide) (by decide)).2
example : eatEnd "file.xml".toList ".xml".toList = (true, "file".toList) := (C78_eatEnd _ _).1 "file".toList (by decide)

end BX
