import Verif.Lemmas.Detect
import Verif.Spec.DateText
import Verif.Lemmas.Codec
/-
Property theorems C04 (INT32), C05 (fixed point), C06 (64 bit), C07 (IPv4), C47 (scanners).
-/
namespace BX
open XBT Spec

/-! ### C47: numeric scanners -/

/-- C47, `ScanInt`: on a text consisting of blanks, an optional minus, a maximal run of digits and anything else, the
value of the digits with the sign is returned and the cursor stands behind the digits; if the magnitude exceeds 2^31-1
the behaviour is undefined. -/
theorem C47_scanInt_number_partial (s ds rest : CStr) (neg : Bool) (hs : Spaces s) (hd : Digits ds) (hr : NoDigit rest) :
    (digitsValue ds ≤ 2 ^ 31 - 1 → scanInt (s ++ (if neg then ['-'] else []) ++ ds ++ rest) =
      .ok (if neg then -(digitsValue ds : Int) else digitsValue ds, rest)) ∧
    (2 ^ 31 - 1 < digitsValue ds → scanInt (s ++ (if neg then ['-'] else []) ++ ds ++ rest) = .ub) := by
  have h := scanSigned_run 2147483647 s ds rest neg hs hd hr
  constructor <;> intro hv
  · rw [if_pos (show digitsValue ds ≤ 2147483647 by omega)] at h; exact h
  · rw [if_neg (show ¬ digitsValue ds ≤ 2147483647 by omega)] at h; exact h

/-- C47, `ScanInt64`. -/
theorem C47_scanInt64_number_partial (s ds rest : CStr) (neg : Bool) (hs : Spaces s) (hd : Digits ds) (hr : NoDigit rest) :
    (digitsValue ds ≤ 2 ^ 63 - 1 → scanInt64 (s ++ (if neg then ['-'] else []) ++ ds ++ rest) =
      .ok (if neg then -(digitsValue ds : Int) else digitsValue ds, rest)) ∧
    (2 ^ 63 - 1 < digitsValue ds → scanInt64 (s ++ (if neg then ['-'] else []) ++ ds ++ rest) = .ub) := by
  have h := scanSigned_run 9223372036854775807 s ds rest neg hs hd hr
  constructor <;> intro hv
  · rw [if_pos (show digitsValue ds ≤ 9223372036854775807 by omega)] at h; exact h
  · rw [if_neg (show ¬ digitsValue ds ≤ 9223372036854775807 by omega)] at h; exact h

/-- C47: both signed scanners reject every text that is not of that form. -/
theorem C47_signed_rejects_partial (p : CStr)
    (h : ¬ ∃ (s : CStr) (neg : Bool) (ds rest : CStr), Spaces s ∧ Digits ds ∧ NoDigit rest ∧
      p = s ++ (if neg then ['-'] else []) ++ ds ++ rest) :
    scanInt p = .fail ∧ scanInt64 p = .fail := by
  constructor
  · rcases scanSigned_ok_or_fail 2147483647 p with h1 | h1
    · exact h1
    · exact absurd h1 h
  · rcases scanSigned_ok_or_fail 9223372036854775807 p with h1 | h1
    · exact h1
    · exact absurd h1 h

/-- C47, `ScanUInt64` in decimal: the value modulo 2^64 (hence the value itself when representable). -/
theorem C47_scanUInt64_decimal_partial (s ds rest : CStr) (hs : Spaces s) (hd : Digits ds) (hr : NoDigit rest)
    (hx : ¬ (ds = ['0'] ∧ peek rest = 'x')) :
    scanUInt64 (s ++ ds ++ rest) = .ok (digitsValue ds % 2 ^ 64, rest) := by
  obtain ⟨c, cs, rfl⟩ : ∃ c cs, ds = c :: cs := by
    cases ds with
    | nil => exact absurd rfl hd.1
    | cons c cs => exact ⟨c, cs, rfl⟩
  have hc : isDig c = true := hd.2 c (by simp)
  unfold scanUInt64
  have hsk : skipSpaces (s ++ (c :: cs ++ rest)) = c :: cs ++ rest :=
    skipSpaces_append hs (.inl (show isSpace c = false from isDig_not_space hc))
  rw [List.append_assoc, hsk]
  dsimp only
  rw [if_neg, if_pos (show isDig (peek (c :: cs ++ rest)) = true from hc)]
  · have := scanDigitsU_run 0 (c :: cs) rest hd.2 hr (by omega)
    rw [this, valFrom_eq]; simp
  · rintro ⟨h1, h2⟩
    have h1 : c = '0' := h1
    subst h1
    cases cs with
    | nil => exact hx ⟨rfl, h2⟩
    | cons d ds =>
      have hd2 := hd.2 d (by simp)
      have h2 : d = 'x' := h2
      subst h2; revert hd2; decide

/-- positional value of hexadecimal digits -/
theorem scanHexU_run (x : Nat) (hs rest : CStr) (hh : ∀ c ∈ hs, (hexVal c).isSome) (hr : hexVal (peek rest) = none)
    (hx : x < 2 ^ 64) :
    scanHexU x (hs ++ rest) = (hs.foldl (fun x c => x * 16 + (hexVal c).getD 0) x % 2 ^ 64, rest) := by
  induction hs generalizing x with
  | nil =>
    simp only [List.nil_append, List.foldl_nil, Nat.mod_eq_of_lt hx]
    cases rest with
    | nil => rfl
    | cons c cs =>
      have : hexVal c = none := hr
      simp [scanHexU, this]
  | cons c cs ih =>
    have hc := hh c (by simp)
    obtain ⟨d, hd⟩ := Option.isSome_iff_exists.mp hc
    simp only [List.cons_append, scanHexU, hd, List.foldl_cons, Option.getD_some]
    rw [ih _ (fun y hy => hh y (by simp [hy])) (Nat.mod_lt _ (by omega))]
    congr 1
    have key : ∀ (l : CStr) (a : Nat), l.foldl (fun x c => x * 16 + (hexVal c).getD 0) (a % 2^64) % 2^64 =
        l.foldl (fun x c => x * 16 + (hexVal c).getD 0) a % 2^64 := by
      intro l
      have gen : ∀ (l : CStr) (a b : Nat), a % 2^64 = b % 2^64 → l.foldl (fun x c => x * 16 + (hexVal c).getD 0) a % 2^64 =
        l.foldl (fun x c => x * 16 + (hexVal c).getD 0) b % 2^64 := by
        intro l
        induction l with
        | nil => intro a b h; exact h
        | cons e es ih => intro a b h; simp only [List.foldl_cons]; apply ih; omega
      intro a; exact gen l _ _ (by omega)
    exact key cs _

/-- C47, `ScanUInt64` with the `0x` prefix: value of the maximal run of hexadecimal digits modulo 2^64. `ds` lists the
digits with their values. -/
theorem C47_scanUInt64_hex_partial (s rest : CStr) (ds : List (Nat × Char)) (hsp : Spaces s) (hne : ds ≠ [])
    (hh : ∀ d ∈ ds, HexDigit d.1 d.2) (hr : ∀ v, ¬ HexDigit v (peek rest)) :
    scanUInt64 (s ++ '0' :: 'x' :: (ds.map Prod.snd ++ rest)) =
      .ok ((ds.map Prod.fst).foldl (fun x d => x * 16 + d) 0 % 2 ^ 64, rest) := by
  have hval : ∀ d ∈ ds, hexVal d.2 = some d.1 := fun d hd => (hexVal_iff _ _).mpr (hh d hd)
  have hr' : hexVal (peek rest) = none := by
    cases hv : hexVal (peek rest) with
    | none => rfl
    | some v => exact absurd ((hexVal_iff _ _).mp hv) (hr v)
  have hfold : ∀ (l : List (Nat × Char)) (x : Nat), (∀ d ∈ l, hexVal d.2 = some d.1) →
      (l.map Prod.snd).foldl (fun x c => x * 16 + (hexVal c).getD 0) x = (l.map Prod.fst).foldl (fun x d => x * 16 + d) x := by
    intro l
    induction l with
    | nil => intro x _; rfl
    | cons d l ih =>
      intro x h
      simp only [List.map_cons, List.foldl_cons, h d (by simp), Option.getD_some]
      exact ih _ (fun e he => h e (by simp [he]))
  rw [← hfold ds 0 hval]
  have hh' : ∀ c ∈ ds.map Prod.snd, (hexVal c).isSome = true := by
    intro c hc
    obtain ⟨d, hd, rfl⟩ := List.mem_map.mp hc
    rw [hval d hd]; rfl
  have hne' : ds.map Prod.snd ≠ [] := by simpa using hne
  generalize ds.map Prod.snd = hs at *
  unfold scanUInt64
  rw [skipSpaces_append hsp (.inl (by show isSpace '0' = false; decide))]
  have hpk : (hexVal (peek (hs ++ rest))).isSome = true := by
    cases hs with
    | nil => exact absurd rfl hne'
    | cons c cs => exact hh' c (by simp)
  show (if '0' = '0' ∧ 'x' = 'x' then (if (hexVal (peek (hs ++ rest))).isSome = true then _ else _) else _) = _
  rw [if_pos ⟨rfl, rfl⟩, if_pos hpk]
  show Out.ok (scanHexU 0 (hs ++ rest)) = _
  rw [scanHexU_run 0 hs rest hh' hr' (by omega)]

/-- The full statement of C47 is false at exactly one representable value per signed scanner: the texts of INT_MIN and
INT64_MIN overflow. -/
theorem C47_minimum_overflows : scanInt "-2147483648".toList = .ub ∧ isI32 (-2147483648) ∧
    scanInt64 "-9223372036854775808".toList = .ub ∧ isI64 (-9223372036854775808) := by
  decide +kernel

example : scanInt "  -42abc".toList = .ok (-42, "abc".toList) ∧ scanInt " x".toList = .fail ∧
    scanUInt64 "18446744073709551615,".toList = .ok (18446744073709551615, ",".toList) ∧
    scanUInt64 "0xFfz".toList = .ok (255, "z".toList) := by decide +kernel

/-! ### C04: 32-bit integers -/

theorem printInt_text (v : Int) : IntText v (printInt v) := by
  refine ⟨dec v.natAbs, ?_, dec_Digits _, dec_value _, dec_no_leading_zero _⟩
  unfold printInt; rfl

theorem atoi_printInt (v : Int) (h : isI32 v) : atoi (printInt v) = .ok v := by
  unfold atoi printInt
  by_cases hv : v < 0
  · simp only [if_pos hv]
    have h1 : skipSpaces ('-' :: dec v.natAbs) = '-' :: dec v.natAbs := by
      have : isSpace '-' = false := by decide
      simp [skipSpaces, this]
    rw [h1]
    have htw : (dec v.natAbs).takeWhile isDig = dec v.natAbs := by
      have := List.takeWhile_append_of_pos (p := isDig) (l₂ := []) (dec_digits v.natAbs)
      simpa using this
    simp only [peek, List.headD_cons, beq_self_eq_true, Bool.true_or, if_true, List.tail_cons, htw]
    rw [show (dec v.natAbs).foldl (fun x c => x * 10 + digVal c) 0 = v.natAbs from valFrom_dec _]
    rw [show -(v.natAbs : Int) = v by omega, if_pos h]
  · simp only [if_neg hv]
    obtain ⟨c, cs, hcs⟩ : ∃ c cs, dec v.natAbs = c :: cs := by
      cases hd : dec v.natAbs with
      | nil => exact absurd hd (dec_ne_nil _)
      | cons c cs => exact ⟨c, cs, rfl⟩
    have hc : isDig c = true := dec_digits v.natAbs c (by rw [hcs]; simp)
    have h1 : skipSpaces (dec v.natAbs) = dec v.natAbs := by
      rw [hcs]; simp [skipSpaces, isDig_not_space hc]
    have hp : peek (dec v.natAbs) = c := by rw [hcs]; rfl
    have hm : (c == '-') = false := by simpa using isDig_ne_dash hc
    have hpl : (c == '+') = false := by
      simp; rintro rfl; revert hc; decide
    have htw : (dec v.natAbs).takeWhile isDig = dec v.natAbs := by
      have := List.takeWhile_append_of_pos (p := isDig) (l₂ := []) (dec_digits v.natAbs)
      simpa using this
    rw [h1]
    simp only [hp, hm, hpl, Bool.or_self, Bool.false_eq_true, if_false, htw]
    rw [show (dec v.natAbs).foldl (fun x c => x * 10 + digVal c) 0 = v.natAbs from valFrom_dec _]
    rw [show (v.natAbs : Int) = v by omega, if_pos h]

/-- C04. For every 32-bit integer: its printed text is the canonical decimal text, is detected as INT32, and `atoi` (the
conversion used for INT32) gives the integer back. -/
theorem C04_int32_roundtrip (v : Int) (h : isI32 v) :
    IntText v (printInt v) ∧ detect (printInt v) = INT32 ∧ atoi (printInt v) = .ok v := by
  refine ⟨printInt_text v, ?_, atoi_printInt v h⟩
  unfold isI32 INT_MIN INT_MAX at h
  have hlen : (dec v.natAbs).length ≤ 10 := dec_length_le _ 10 (by omega) (by omega)
  exact detect_printInt_small v h.1 h.2

/-- C04: the canonical decimal text is unique, so text and value determine each other. -/
theorem C04_text_unique (v : Int) (s : CStr) (hs : IntText v s) : s = printInt v := by
  obtain ⟨ds, rfl, hd, hv, hz⟩ := hs
  have := digits_unique ds (dec v.natAbs) hd (dec_Digits _) (by rw [hv, dec_value]) hz (dec_no_leading_zero _)
  subst this
  unfold printInt; rfl

example : isI32 (-2147483648) ∧ printInt (-2147483648) = "-2147483648".toList := by decide +kernel

/-! ### C05: fixed point -/

/-- C05, full statement: the printed text of every raw value parses back to it. -/
def C05_full : Prop := ∀ (t : XBT) (k : Nat) (V : Int), decimalsOf t = some k → isI32 V →
  ∃ s, printDecimal k V = .ok s ∧ str2dec s k = .ok V

/-- C05 is false: -0.5 prints as "0.5". -/
theorem C05_sign_lost_witness : ¬ C05_full := by
  intro h
  obtain ⟨s, h1, h2⟩ := h INT32_DECI 1 (-5) rfl (by decide)
  have : s = "0.5".toList := by
    have : printDecimal 1 (-5) = .ok "0.5".toList := by decide +kernel
    rw [this] at h1; cases h1; rfl
  subst this
  revert h2; decide +kernel

/-- C05, guarded: a raw value whose integer part is not zero or which is not negative, and which is at least 48 away from
the extreme of the type, survives printing and parsing under the same type. -/
theorem C05_roundtrip_partial (t : XBT) (k : Nat) (V : Int) (ht : decimalsOf t = some k)
    (hb : V.natAbs + 48 ≤ 2147483647) (hs : 0 ≤ V ∨ V ≤ -(10 ^ k : Nat)) :
    ∃ s, printDecimal k V = .ok s ∧ str2dec s k = .ok V := by
  have hk := decimalsOf_pos t k ht
  refine ⟨_, printDecimal_eq k V (by unfold INT_MIN; omega), ?_⟩
  exact str2dec_print k V hk hb hs

/-- C05: what happens in the excluded band around zero, for every value of it: the sign is lost. -/
theorem C05_sign_lost (t : XBT) (k : Nat) (V : Int) (ht : decimalsOf t = some k) (hneg : V < 0) (hband : -(10 ^ k : Nat) < V)
    (hb : V.natAbs + 48 ≤ 2147483647) :
    ∃ s, printDecimal k V = .ok s ∧ str2dec s k = .ok (-V) := by
  have hk := decimalsOf_pos t k ht
  refine ⟨_, printDecimal_eq k V (by unfold INT_MIN; omega), ?_⟩
  have h := str2dec_print k (-V) hk (by omega) (.inl (by omega))
  have e1 : Int.tdiv V (10 ^ k : Nat) = Int.tdiv (-V) (10 ^ k : Nat) := by
    obtain ⟨n, rfl⟩ : ∃ n : Nat, V = -(n : Int) := ⟨V.natAbs, by omega⟩
    rw [Int.neg_tdiv, Int.neg_neg, tdiv_nonneg_eq' _ _ (by omega)]
    rw [Int.ediv_eq_zero_of_lt (by omega) (by omega)]; rfl
  rw [e1]
  rw [show V.natAbs = (-V).natAbs by omega]
  exact h

/-- C05: at the very end of the range the parser overflows (`value * 10 + (*src) - '0'` adds the character code first). -/
theorem C05_extreme_overflows : printDecimal 1 2147483647 = .ok "214748364.7".toList ∧
    str2dec "214748364.7".toList 1 = .ub ∧ printDecimal 1 (-2147483648) = .ub := by decide +kernel

/-- C05: the printed text of a value is detected as the very type it was printed from. -/
theorem C05_detected_partial (t : XBT) (k : Nat) (V : Int) (ht : decimalsOf t = some k) (hb : V.natAbs ≤ 2147483647) :
    ∃ s, printDecimal k V = .ok s ∧ detect s = t := by
  refine ⟨_, printDecimal_eq k V (by unfold INT_MIN; omega), ?_⟩
  exact detect_decimal t k V ht hb

example : printDecimal 2 (-123456) = .ok "-1234.56".toList ∧ str2dec "-1234.56".toList 2 = .ok (-123456) ∧
    decimalsOf INT32_CENTI = some 2 := by decide +kernel

/-! ### C06: 64-bit integers -/

/-- C06, unsigned: for all 2^64 values. -/
theorem C06_uint64_roundtrip (v : Nat) (h : v < 2 ^ 64) : scanUInt64 (printUInt64Chunk v) = .ok (v, []) := by
  have hp : printUInt64Chunk v = dec v := by
    unfold printUInt64Chunk; split
    · rename_i h0; subst h0; decide +kernel
    · rename_i h0; rw [decLoop_eq v [] (by omega)]; simp
  rw [hp]
  have := C47_scanUInt64_decimal_partial [] (dec v) [] (by intro c hc; simp at hc) (dec_Digits v) (by decide) (by rintro ⟨_, h⟩; revert h; decide)
  rw [dec_value, Nat.mod_eq_of_lt h] at this
  simpa using this

/-- C06, signed, both printers: for every value other than the excluded ones the text scans back. The scanner part holds
for all but INT64_MIN. -/
theorem C06_int64_roundtrip_partial (v : Int) (h : isI64 v) (hmin : v ≠ INT64_MIN) :
    (∃ s, int64ToStr v = .ok s ∧ scanInt64 s = .ok (v, []) ∧ IntText v s) ∧
    (v ≠ -576460752303423488 → ∃ s, printInt64Chunk v = .ok s ∧ scanInt64 s = .ok (v, []) ∧ IntText v s) := by
  have hscan : scanInt64 (printInt v) = .ok (v, []) := by
    have hh := scanSigned_run 9223372036854775807 [] (dec v.natAbs) [] (decide (v < 0)) (by intro c hc; simp at hc) (dec_Digits _) (by decide)
    unfold isI64 INT64_MIN INT64_MAX at h
    unfold INT64_MIN at hmin
    rw [dec_value, if_pos (show v.natAbs ≤ 9223372036854775807 by omega)] at hh
    unfold scanInt64 printInt
    by_cases hv : v < 0
    · simp only [hv, decide_true, if_true, List.nil_append, List.append_nil, List.cons_append] at hh ⊢
      rw [hh]; congr 2; omega
    · simp only [hv, decide_false, if_false, List.nil_append, List.append_nil, Bool.false_eq_true] at hh ⊢
      rw [hh]; congr 2; omega
  have hloop : ∀ w : Int, w ≠ 0 → (if w < 0 then '-' :: decLoop w.natAbs [] else decLoop w.natAbs []) = printInt w := by
    intro w hw
    rw [decLoop_eq _ _ (by omega)]; unfold printInt; simp
  constructor
  · refine ⟨printInt v, ?_, hscan, printInt_text v⟩
    unfold int64ToStr
    rw [if_neg hmin]
    by_cases h0 : v = 0
    · subst h0; decide +kernel
    · simp only [if_neg h0]; rw [hloop v h0]
  · intro hs
    refine ⟨printInt v, ?_, hscan, printInt_text v⟩
    unfold printInt64Chunk
    by_cases h0 : v = 0
    · subst h0; decide +kernel
    · rw [if_neg h0, if_neg hs, if_neg hmin]; simp only []; rw [hloop v h0]

/-- The full statement of C06 is false for the signed type: one ordinary constant prints as a different number … -/
theorem C06_special_constant : isI64 (-576460752303423488) ∧
    printInt64Chunk (-576460752303423488) = .ok "9223372036854775808".toList ∧
    scanInt64 "9223372036854775808".toList = .ub := by decide +kernel

/-- … and the minimum is undefined behaviour in both printers. -/
theorem C06_minimum : int64ToStr INT64_MIN = .ub ∧ printInt64Chunk INT64_MIN = .ub := by decide +kernel

example : isI64 (-9007199254740993) ∧ printInt64Chunk (-9007199254740993) = .ok "-9007199254740993".toList := by
  decide +kernel

/-! ### C07: IPv4 -/

/-- C07. Every address survives: its dotted text is detected as IPv4 and scans back to the address. -/
theorem C07_ipv4_roundtrip (ip : Nat) (h : ip < 2 ^ 32) :
    scanIPv4 (printIPv4 ip) = .ok (ip, []) ∧ detect (printIPv4 ip) = IPv4 := by
  refine ⟨?_, detect_ipv4 ip h⟩
  have nd : ∀ r, NoDigit ('.' :: r) := by intro r; show isDig '.' = false; decide
  have hs : ∀ (n : Nat) (r : CStr), NoDigit r → n < 256 → scanInt (dec n ++ r) = .ok ((n : Int), r) := by
    intro n r hr hn
    have := scanSigned_run 2147483647 [] (dec n) r false (by intro c hc; simp at hc) (dec_Digits n) hr
    rw [dec_value, if_pos (show n ≤ 2147483647 by omega)] at this
    simpa [scanInt] using this
  unfold scanIPv4 printIPv4
  simp only [List.append_assoc, List.cons_append]
  rw [hs _ _ (nd _) (by omega)]
  simp only [Out.bind_ok]
  rw [if_neg (by omega), if_neg (by simp [peek])]
  simp only [List.tail_cons]
  rw [hs _ _ (nd _) (by omega)]
  simp only [Out.bind_ok]
  rw [if_neg (by omega), if_neg (by simp [peek])]
  simp only [List.tail_cons]
  rw [hs _ _ (nd _) (by omega)]
  simp only [Out.bind_ok]
  rw [if_neg (by omega), if_neg (by simp [peek])]
  simp only [List.tail_cons]
  have := hs (ip % 256) [] (by decide) (by omega)
  rw [List.append_nil] at this
  rw [this]
  simp only [Out.bind_ok]
  rw [if_neg (by omega)]
  simp only [Int.toNat_natCast]
  congr 2
  omega

/-- C07. Whatever text is accepted, it consists of four numbers in 0..255 separated by dots (white space before a number
and a minus sign before a zero are tolerated by the scanner), and the result is their address. -/
theorem C07_accepted_octets (p rest : CStr) (n : Nat) (h : scanIPv4 p = .ok (n, rest)) :
    ∃ (a b c d : Nat) (pa pb pc pd : CStr), a < 256 ∧ b < 256 ∧ c < 256 ∧ d < 256 ∧
      n = a * 2 ^ 24 + b * 2 ^ 16 + c * 2 ^ 8 + d ∧
      p = pa ++ '.' :: (pb ++ '.' :: (pc ++ '.' :: (pd ++ rest))) ∧
      OctetText a pa ∧ OctetText b pb ∧ OctetText c pc ∧ OctetText d pd := by
  unfold scanIPv4 at h
  obtain ⟨⟨a, p1⟩, h1, h⟩ := bind_eq_ok h
  dsimp only at h
  split at h
  · cases h
  rename_i ha
  split at h
  · cases h
  rename_i hp1
  obtain ⟨⟨b, p2⟩, h2, h⟩ := bind_eq_ok h
  dsimp only at h
  split at h
  · cases h
  rename_i hb
  split at h
  · cases h
  rename_i hp2
  obtain ⟨⟨c, p3⟩, h3, h⟩ := bind_eq_ok h
  dsimp only at h
  split at h
  · cases h
  rename_i hc
  split at h
  · cases h
  rename_i hp3
  obtain ⟨⟨d, p4⟩, h4, h⟩ := bind_eq_ok h
  dsimp only at h
  split at h
  · cases h
  rename_i hd
  cases h
  obtain ⟨ta, xa, ea⟩ := scanInt_octet h1 (by omega)
  obtain ⟨tb, xb, eb⟩ := scanInt_octet h2 (by omega)
  obtain ⟨tc, xc, ec⟩ := scanInt_octet h3 (by omega)
  obtain ⟨td, xd, ed⟩ := scanInt_octet h4 (by omega)
  have q1 := peek_cons (show peek p1 = '.' by simpa using hp1) (by decide)
  have q2 := peek_cons (show peek p2 = '.' by simpa using hp2) (by decide)
  have q3 := peek_cons (show peek p3 = '.' by simpa using hp3) (by decide)
  refine ⟨a.toNat, b.toNat, c.toNat, d.toNat, ta, tb, tc, td, by omega, by omega, by omega, by omega, rfl, ?_, xa, xb, xc, xd⟩
  rw [ea, q1, eb, q2, ec, q3, ed]

example : scanIPv4 "192.168.1.300".toList = .fail ∧ scanIPv4 "192.168.1.30x".toList = .ok (3232235806, "x".toList) := by
  decide +kernel

end BX
