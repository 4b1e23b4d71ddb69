import Verif.Lemmas.Value
import Verif.Lemmas.Types
import Verif.Lemmas.Detect
/-
Property C03: which detected types accept the text they were detected from.
-/
namespace BX
open XBT Spec

/-- what one character does to the counters that decide between the number types -/
theorem step_counts (s : Det) (c : Char) :
    (Det.step s c).dashes = s.dashes + (if c = '-' then 1 else 0) ∧
    (Det.step s c).digits = s.digits + (if isDig c then 1 else 0) ∧
    ((Det.step s c).hexadigits + (Det.step s c).dots + (Det.step s c).colons + (Det.step s c).others + (Det.step s c).whites =
      s.hexadigits + s.dots + s.colons + s.others + s.whites + (if c = '-' ∨ isDig c = true then 0 else 1)) := by
  unfold Det.step
  by_cases h1 : c = '-'
  · subst h1; simp [isDig]
  by_cases h2 : isDig c = true
  · simp [h1, h2]
  have h2' : isDig c = false := by simpa using h2
  simp only [h1, h2', if_false, Bool.false_eq_true, or_false]
  repeat' split
  all_goals simp
  all_goals omega

theorem fold_counts (v : CStr) (s : Det) :
    (v.foldl Det.step s).dashes = s.dashes + v.count '-' ∧
    (v.foldl Det.step s).digits = s.digits + v.countP isDig ∧
    ((v.foldl Det.step s).hexadigits + (v.foldl Det.step s).dots + (v.foldl Det.step s).colons + (v.foldl Det.step s).others +
      (v.foldl Det.step s).whites = s.hexadigits + s.dots + s.colons + s.others + s.whites +
        v.countP (fun c => !(decide (c = '-' ∨ isDig c = true)))) := by
  induction v generalizing s with
  | nil => simp
  | cons c v ih =>
    obtain ⟨a1, a2, a3⟩ := ih (Det.step s c)
    obtain ⟨b1, b2, b3⟩ := step_counts s c
    simp only [List.foldl_cons, a1, a2, a3, b1, b2, b3, List.count_cons, List.countP_cons]
    refine ⟨?_, ?_, ?_⟩
    · simp only [beq_iff_eq]; omega
    · omega
    · by_cases h : c = '-' ∨ isDig c = true <;> simp [h] <;> omega

/-- an integer-like text: digits and at most one dash -/
theorem plain_of_counts (v : CStr) (d : Det) (hd : v.foldl Det.step {} = d) (h1 : 0 < d.digits) (h2 : d.dashes ≤ 1)
    (h3 : d.hexadigits = 0 ∧ d.dots = 0 ∧ d.colons = 0 ∧ d.others = 0 ∧ d.whites = 0) :
    (∀ c ∈ v, c = '-' ∨ isDig c = true) ∧ v.count '-' ≤ 1 ∧ ∃ c ∈ v, isDig c = true := by
  obtain ⟨a1, a2, a3⟩ := fold_counts v {}
  rw [hd] at a1 a2 a3
  simp only [Nat.zero_add] at a1 a2 a3
  obtain ⟨b1, b2, b3, b4, b5⟩ := h3
  rw [b1, b2, b3, b4, b5] at a3
  simp only [Nat.add_zero] at a3
  refine ⟨?_, by omega, ?_⟩
  · have := List.countP_eq_zero.mp a3.symm
    intro c hc
    have := this c hc
    simp only [Bool.not_eq_true', decide_eq_false_iff_not, Classical.not_not] at this
    exact this
  · have : 0 < v.countP isDig := by omega
    exact List.countP_pos_iff.mp this

theorem scan_plain (v : CStr) (lim : Nat) (h1 : ∀ c ∈ v, c = '-' ∨ isDig c = true) (h2 : v.count '-' ≤ 1)
    (h3 : ∃ c ∈ v, isDig c = true) : scanSigned lim v ≠ .fail := by
  have hns : skipSpaces v = v := by
    cases v with
    | nil => rfl
    | cons c v =>
      have : isSpace c = false := by
        rcases h1 c (by simp) with rfl | h
        · decide
        · exact isDig_not_space h
      simp [skipSpaces, this]
  have hnf : ∀ x p, scanDigits lim x p ≠ .fail := by
    intro x p
    induction p generalizing x with
    | nil => simp [scanDigits]
    | cons c p ih =>
      rw [scanDigits]
      split
      · split
        · exact ih _
        · simp
      · simp
  have hb : ∀ (p : CStr) (f : Nat × CStr → Out (Int × CStr)), (∀ a, f a ≠ .fail) → (scanDigits lim 0 p).bind f ≠ .fail := by
    intro p f hf
    cases h : scanDigits lim 0 p with
    | ok a => exact hf a
    | fail => exact absurd h (hnf _ _)
    | ub => simp
  unfold scanSigned
  rw [hns]
  dsimp only
  rw [if_pos]
  · exact hb _ _ (fun a => by simp)
  · cases v with
    | nil => obtain ⟨c, hc, _⟩ := h3; simp at hc
    | cons c v =>
      by_cases hc : c = '-'
      · subst hc
        have h0 : v.count '-' = 0 := by simpa using h2
        have hv : ∀ c ∈ v, isDig c = true := by
          intro c hc
          rcases h1 c (by simp [hc]) with rfl | h
          · exact absurd hc (List.count_eq_zero.mp h0)
          · exact h
        have hne : v ≠ [] := by
          rintro rfl
          obtain ⟨c, hc, hd⟩ := h3
          simp at hc; subst hc; revert hd; decide
        cases v with
        | nil => exact absurd rfl hne
        | cons a v => simpa [peek] using hv a (by simp)
      · have : isDig c = true := by
          rcases h1 c (by simp) with h | h
          · exact absurd h hc
          · exact h
        simp [peek, hc, this]

theorem decide_int64 (d : Det) (hp : Bool) (n : Nat) (v : CStr) (t : XBT) (ht : t = INT64 ∨ t = UINT64) (h : d.decide hp n v = t) :
    0 < d.digits ∧ d.dashes ≤ 1 ∧ (d.hexadigits = 0 ∧ d.dots = 0 ∧ d.colons = 0 ∧ d.others = 0 ∧ d.whites = 0) ∧
    (t = UINT64 → d.negative = 0) ∧ d.exponent = 0 := by
  unfold Det.decide at h
  by_cases c1 : d.digits > 0 ∧ d.digits ≤ 19 ∧ d.hexadigits = 0 ∧ d.negative ≤ 1 ∧ d.dots = 0 ∧ d.dashes ≤ 1
      ∧ d.colons = 0 ∧ d.others = 0 ∧ d.exponent = 0 ∧ d.spaces = 0 ∧ d.whites = 0 ∧ d.overflow64 = false
  · refine ⟨c1.1, c1.2.2.2.2.2.1, ⟨c1.2.2.1, c1.2.2.2.2.1, c1.2.2.2.2.2.2.1, c1.2.2.2.2.2.2.2.1, c1.2.2.2.2.2.2.2.2.2.2.1⟩, ?_, c1.2.2.2.2.2.2.2.2.1⟩
    rintro rfl
    rw [if_pos c1] at h
    apply Classical.byContradiction
    intro hn
    simp only [hn, false_and, if_false] at h
    repeat' split at h
    all_goals exact absurd h (by decide)
  · exfalso
    rw [if_neg c1] at h
    dsimp only at h
    have hm : t ∈ [IPv4, UNIX_DATE, INT32_DECI, INT32_CENTI, INT32_MILI, INT32_MICRO, INT32_NANO, DOUBLE, FLOAT, SHA1, GUID,
        UNIX_TIME, UNIX_TIME64_MSEC, HEX, STRING] := by
      rw [← h]
      repeat' apply ite_mem
      all_goals decide
    rcases ht with rfl | rfl <;> exact absurd hm (by decide)

theorem negative_dashes (v : CStr) (s : Det) (h0 : s.negative = s.dashes) (hs : s.exponentSeen = false) (hx : s.exponent = 0)
    (h : (v.foldl Det.step s).exponent = 0) : (v.foldl Det.step s).negative = (v.foldl Det.step s).dashes := by
  have mono : ∀ (v : CStr) (s : Det), s.exponent ≤ (v.foldl Det.step s).exponent := by
    intro v
    induction v with
    | nil => intro s; exact Nat.le_refl _
    | cons c v ih =>
      intro s
      rw [List.foldl_cons]
      refine Nat.le_trans ?_ (ih _)
      unfold Det.step
      repeat' split
      all_goals simp
  induction v generalizing s with
  | nil => exact h0
  | cons c v ih =>
    rw [List.foldl_cons] at h ⊢
    have hm := mono v (Det.step s c)
    have hE : (Det.step s c).exponent = 0 := by omega
    refine ih _ ?_ ?_ hE h
    · unfold Det.step
      repeat' split
      all_goals simp_all
    · by_cases hc : c = 'E'
      · subst hc
        have : (Det.step s 'E').exponent = s.exponent + 1 := rfl
        omega
      · have : (Det.step s c).exponentSeen = s.exponentSeen := by
          unfold Det.step
          repeat' split
          all_goals first | rfl | contradiction
        rw [this]; exact hs

/-- C03. The full property (every detected type accepts the text) is refuted: see `C03_refuted`, `C03_uint32_refused`,
`C03_double_refused`, `C03_other_refusals`. Proved: no text detected as one of these types is ever refused. (`ub` is possible for
oversized numbers, see `C03_undefined`.) -/
theorem C03_never_refused_partial (flt : CStr → List UInt8) (v : CStr) (wp limit : Nat)
    (ht : detect v ∈ [NULL, STRING, INT32, INT64, UINT64, FLOAT, HEX, INT32_DECI, INT32_CENTI, INT32_MILI, INT32_MICRO, INT32_NANO]) :
    fromString flt v (detect v) wp limit ≠ .fail := by
  have hbind : ∀ {α : Type} (x : Out α) (f : α → Out Wr), x ≠ .fail → (∀ a, f a ≠ .fail) → x.bind f ≠ .fail := by
    intro α x f hx hf
    cases x with
    | ok a => exact hf a
    | fail => exact absurd rfl hx
    | ub => simp
  have hdec : ∀ n x p, decDigitsLoop n x p ≠ .fail := by
    intro n x p
    induction p generalizing n x with
    | nil => simp [decDigitsLoop]
    | cons c p ih =>
      rw [decDigitsLoop]
      split
      · split
        · exact ih _ _
        · simp
      · simp
  have hsc : ∀ k x, scale10 k x ≠ .fail := by
    intro k
    induction k with
    | zero => intro x; simp [scale10]
    | succ k ih =>
      intro x
      rw [scale10]
      split
      · exact ih _
      · simp
  have hstr : ∀ k, str2dec v k ≠ .fail := by
    intro k
    unfold str2dec
    dsimp only
    generalize (if (peek v == '-') = true then List.tail v else v) = src
    cases h1 : decDigitsLoop none 0 src with
    | fail => exact absurd h1 (hdec _ _ _)
    | ub => simp
    | ok a =>
      rw [Out.bind_ok]
      have h2 : ∀ x : Out (Nat × Nat × CStr), x ≠ .fail → (x.bind fun y => (scale10 y.2.1 y.1).bind fun v_1 =>
          Out.ok (if (peek v == '-') = true then -(v_1 : Int) else (v_1 : Int))) ≠ .fail := by
        intro x hx
        cases x with
        | fail => exact absurd rfl hx
        | ub => simp
        | ok y =>
          rw [Out.bind_ok]
          cases h3 : scale10 y.2.1 y.1 with
          | fail => exact absurd h3 (hsc _ _)
          | ub => simp
          | ok z => simp
      apply h2
      split
      · exact hdec _ _ _
      · simp
  have hatoi : atoi v ≠ .fail := by
    unfold atoi; dsimp only
    generalize (if (peek (skipSpaces v) == '-') = true then _ else _ : Int) = x
    split <;> simp
  have hok : ∀ (x : Wr), (Out.ok x : Out Wr) ≠ .fail := by intro x; simp
  simp only [List.mem_cons, List.not_mem_nil, or_false] at ht
  rcases ht with h | h | h | h | h | h | h | h | h | h | h | h <;> rw [h]
  · -- NULL
    have : v = [] := by
      apply Classical.byContradiction
      intro hne
      have hn : ∀ d p n w, Det.decide d p n w ≠ NULL := by
        intro d p n w hx
        have hm : Det.decide d p n w ∈ [IPv4, UNIX_DATE, INT32, UINT32, UINT64, INT64, INT32_DECI, INT32_CENTI, INT32_MILI,
            INT32_MICRO, INT32_NANO, DOUBLE, FLOAT, SHA1, GUID, UNIX_TIME, UNIX_TIME64_MSEC, HEX, STRING] := by
          unfold Det.decide
          dsimp only
          repeat' apply ite_mem
          all_goals decide
        rw [hx] at hm
        exact absurd hm (by decide)
      unfold detect at h
      split at h
      · exact hne rfl
      · exact hn _ _ _ _ h
      · exact hn _ _ _ _ h
    subst this
    simp [fromString]
  · simp [fromString]
  · exact hbind _ _ hatoi (fun a => hok _)
  · -- INT64
    refine hbind _ _ ?_ (fun a => hok _)
    unfold detect at h
    split at h
    · exact absurd h (by decide)
    · -- "0x..." begins with the digit 0
      unfold scanInt64 scanSigned
      dsimp only
      rw [show ∀ r, skipSpaces ('0' :: r) = '0' :: r from fun r => by simp [skipSpaces, isSpace]]
      rename_i rest
      simp only [show (peek ('0' :: 'x' :: rest) == '-') = false from rfl, Bool.false_eq_true, if_false]
      rw [if_pos (show isDig (peek ('0' :: 'x' :: rest)) = true from rfl)]
      have hnf : ∀ x p, scanDigits 9223372036854775807 x p ≠ .fail := by
        intro x p
        induction p generalizing x with
        | nil => simp [scanDigits]
        | cons c p ih =>
          rw [scanDigits]
          split
          · split
            · exact ih _
            · simp
          · simp
      cases hq : scanDigits 9223372036854775807 0 ('0' :: 'x' :: rest) with
      | fail => exact absurd hq (hnf _ _)
      | ub => simp
      | ok a => simp
    · obtain ⟨a1, a2, a3, -, -⟩ := decide_int64 _ _ _ _ INT64 (.inl rfl) h
      obtain ⟨b1, b2, b3⟩ := plain_of_counts v _ rfl a1 a2 a3
      exact scan_plain v _ b1 b2 b3
  · -- UINT64
    refine hbind _ _ ?_ (fun a => hok _)
    unfold detect at h
    split at h
    · exact absurd h (by decide)
    · rename_i rest
      obtain ⟨a1, a2, a3, a4, a5⟩ := decide_int64 _ _ _ _ UINT64 (.inr rfl) h
      obtain ⟨b1, b2, b3⟩ := plain_of_counts rest _ rfl a1 a2 a3
      have hn := negative_dashes rest {} rfl rfl rfl a5
      have hc := (fold_counts rest {}).1
      have h0 : rest.count '-' = 0 := by
        have := a4 rfl
        simp only [Nat.zero_add] at hc
        omega
      unfold scanUInt64
      dsimp only
      rw [show ∀ r, skipSpaces ('0' :: r) = '0' :: r from fun r => by simp [skipSpaces, isSpace]]
      rw [if_pos ⟨rfl, rfl⟩]
      have : (hexVal (peek rest)).isSome = true := by
        cases rest with
        | nil => obtain ⟨c, hc, -⟩ := b3; simp at hc
        | cons c r =>
          have hd : isDig c = true := by
            rcases b1 c (by simp) with rfl | hd
            · simp at h0
            · exact hd
          show (hexVal c).isSome = true
          unfold isDig at hd
          simp only [Bool.and_eq_true, decide_eq_true_eq] at hd
          unfold hexVal
          dsimp only
          rw [if_pos hd]; rfl
      simp [this]
    · obtain ⟨a1, a2, a3, a4, a5⟩ := decide_int64 _ _ _ _ UINT64 (.inr rfl) h
      obtain ⟨b1, b2, b3⟩ := plain_of_counts v _ rfl a1 a2 a3
      have hn := negative_dashes v {} rfl rfl rfl a5
      have hc := (fold_counts v {}).1
      have h0 : v.count '-' = 0 := by
        have := a4 rfl
        simp only [Nat.zero_add] at hc
        omega
      have hd : ∀ c ∈ v, isDig c = true := by
        intro c hc
        rcases b1 c hc with rfl | hd
        · exact absurd hc (List.count_eq_zero.mp h0)
        · exact hd
      have hns : skipSpaces v = v := by
        cases v with
        | nil => rfl
        | cons c v => simp [skipSpaces, isDig_not_space (hd c (by simp))]
      unfold scanUInt64
      dsimp only
      rw [hns]
      have hx : ¬ (peek v = '0' ∧ peek v.tail = 'x') := by
        rintro ⟨-, hx⟩
        cases v with
        | nil => simp [peek] at hx
        | cons c v => cases v with
          | nil => simp [peek] at hx
          | cons c' v =>
            have := hd c' (by simp)
            simp only [peek, List.tail_cons, List.headD_cons] at hx
            subst hx
            exact absurd this (by decide)
      rw [if_neg hx]
      have : isDig (peek v) = true := by
        cases v with
        | nil => obtain ⟨c, hc, -⟩ := b3; simp at hc
        | cons c v => exact hd c (by simp)
      simp [this]
  · simp [fromString]
  · simp only [fromString]; split <;> simp
  · exact hbind _ _ (hstr _) (fun a => hok _)
  · exact hbind _ _ (hstr _) (fun a => hok _)
  · exact hbind _ _ (hstr _) (fun a => hok _)
  · exact hbind _ _ (hstr _) (fun a => hok _)
  · exact hbind _ _ (hstr _) (fun a => hok _)

/-- C03 for whole numbers of any spelling (leading zeros allowed): digits with an optional minus sign in front, detected as
INT32, are accepted and stored as the number they denote. -/
theorem C03_int32_partial (flt : CStr → List UInt8) (neg : Bool) (ds : CStr) (hd : Digits ds) (wp limit : Nat)
    (h : detect ((if neg then ['-'] else []) ++ ds) = INT32) (h19 : ds.length ≤ 19) :
    fromString flt ((if neg then ['-'] else []) ++ ds) INT32 wp limit =
      .ok ⟨aa wp, le32 (if neg then -(digitsValue ds : Int) else digitsValue ds), 0⟩ := by
  obtain ⟨hne, hdig⟩ := hd
  have hval : digitsValue ds < 2 ^ 64 := by
    have : ∀ (l : CStr), (∀ c ∈ l, isDig c = true) → digitsValue l < 10 ^ l.length := by
      intro l
      induction l with
      | nil => intro _; decide
      | cons c l ih =>
        intro hl
        have h1 := ih (fun x hx => hl x (by simp [hx]))
        have h2 : digVal c ≤ 9 := by
          have := hl c (by simp)
          unfold isDig at this
          simp only [Bool.and_eq_true, decide_eq_true_eq] at this
          have e : '9'.toNat = 57 := rfl
          unfold digVal; omega
        have h3 : digitsValue (c :: l) = digVal c * 10 ^ l.length + digitsValue l := by
          have := digitsValue_append [c] l
          simpa [digitsValue, digVal] using this
        rw [h3, List.length_cons, Nat.pow_succ]
        have := Nat.mul_le_mul_right (10 ^ l.length) h2
        omega
    have h1 := this ds hdig
    have h2 : 10 ^ ds.length ≤ 10 ^ 19 := Nat.pow_le_pow_right (by omega) h19
    omega
  have hv0 : valFrom 0 ds = digitsValue ds := by rw [valFrom_eq]; omega
  have hfold : ∃ ex dm, ((if neg then ['-'] else []) ++ ds).foldl Det.step {} = { ({} : Det) with
      negative := if neg then 1 else 0, dashes := if neg then 1 else 0, X := digitsValue ds, X0 := digitsValue ds, EX := ex,
      digits := ds.length, decimals := dm } := by
    cases neg with
    | true =>
      obtain ⟨ex, he⟩ := fold_digits ds { ({} : Det) with negative := 1, dashes := 1 } hdig rfl (by rw [show ({ ({} : Det) with negative := 1, dashes := 1 } : Det).X = 0 from rfl, hv0]; exact hval)
      refine ⟨ex, 0, ?_⟩
      rw [if_pos rfl, List.foldl_append, List.foldl_cons, List.foldl_nil, step_dash _ rfl]
      rw [show ({ ({} : Det) with negative := ({} : Det).negative + 1, dashes := ({} : Det).dashes + 1 } : Det) =
        { ({} : Det) with negative := 1, dashes := 1 } from rfl, he]
      simp [hv0]
    | false =>
      obtain ⟨ex, he⟩ := fold_digits ds {} hdig rfl (by rw [show ({} : Det).X = 0 from rfl, hv0]; exact hval)
      refine ⟨ex, 0, ?_⟩
      rw [if_neg (by simp), List.nil_append, he]
      simp [hv0]
  obtain ⟨ex, dm, hfold⟩ := hfold
  have hne' : (if neg then ['-'] else []) ++ ds ≠ [] := by simp [hne]
  rw [detect_eq _ hne' (cAt_not_x _ (by
    intro c hc
    rcases List.mem_append.mp hc with hc | hc
    · cases neg <;> simp at hc; exact .inr (.inl hc)
    · exact .inl (hdig c hc)) 1), hfold] at h
  have hb : if neg then digitsValue ds ≤ 0x80000000 else digitsValue ds ≤ 0x7fffffff := by
    apply Classical.byContradiction
    intro hcon
    unfold Det.decide at h
    dsimp only at h
    have hlen : 0 < ds.length := List.length_pos_iff.mpr hne
    have n1 : ¬ ((if neg then 1 else 0) = 0 ∧ digitsValue ds ≤ 0x7fffffff) := by cases neg <;> simp_all
    have n2 : ¬ ((if neg then 1 else 0) = 1 ∧ digitsValue ds ≤ 0x80000000) := by cases neg <;> simp_all
    rw [if_neg n1, if_neg n2] at h
    have hm : INT32 ∈ [IPv4, UNIX_DATE, UINT32, UINT64, INT64, INT32_DECI, INT32_CENTI, INT32_MILI,
            INT32_MICRO, INT32_NANO, DOUBLE, FLOAT, SHA1, GUID, UNIX_TIME, UNIX_TIME64_MSEC, HEX, STRING] := by
      rw [← h]
      repeat' apply ite_mem
      all_goals decide
    exact absurd hm (by decide)
  have htw : ds.takeWhile isDig = ds := by
    have := List.takeWhile_append_of_pos (l₁ := ds) (l₂ := []) hdig
    simpa using this
  have hat : atoi ((if neg then ['-'] else []) ++ ds) = .ok (if neg then -(digitsValue ds : Int) else digitsValue ds) := by
    have hx : (ds.foldl (fun x c => x * 10 + digVal c) 0) = digitsValue ds := hv0
    unfold atoi
    cases neg with
    | true =>
      have hs : skipSpaces ('-' :: ds) = '-' :: ds := by simp [skipSpaces, isSpace]
      simp only [if_true, List.cons_append, List.nil_append, hs] at hb ⊢
      simp only [show (peek ('-' :: ds) == '-') = true from rfl, Bool.true_or, if_true, List.tail_cons, htw, hx]
      rw [if_pos]
      unfold isI32 INT_MIN INT_MAX; omega
    | false =>
      obtain ⟨c, cs, rfl⟩ : ∃ c cs, ds = c :: cs := by
        cases ds with
        | nil => exact absurd rfl hne
        | cons c cs => exact ⟨c, cs, rfl⟩
      have hc := hdig c (by simp)
      have hs : skipSpaces (c :: cs) = c :: cs := by simp [skipSpaces, isDig_not_space hc]
      have hm : (peek (c :: cs) == '-') = false := by simpa [peek] using isDig_ne_dash hc
      have hp : (peek (c :: cs) == '+') = false := by
        simp only [peek, List.headD_cons, beq_eq_false_iff_ne]
        rintro rfl; revert hc; decide
      simp only [Bool.false_eq_true, if_false, List.nil_append, hs] at hb ⊢
      simp only [hm, hp, Bool.or_false, Bool.false_eq_true, if_false, htw, hx]
      rw [if_pos]
      unfold isI32 INT_MIN INT_MAX; omega
  simp only [fromString, hat, Out.bind_ok]

example : fromString (fun _ => []) "-007".toList INT32 5 100 = .ok ⟨8, [249, 255, 255, 255], 0⟩ := by decide +kernel

/-- C03 refuted for UINT32: every text detected as UINT32 is refused (`XBT_FromString` has no case for it). -/
theorem C03_uint32_refused (flt : CStr → List UInt8) (v : CStr) (wp limit : Nat) (h : detect v = UINT32) :
    fromString flt v (detect v) wp limit = .fail := by rw [h]; rfl
/-- C03 refuted for DOUBLE: every text detected as DOUBLE is refused. -/
theorem C03_double_refused (flt : CStr → List UInt8) (v : CStr) (wp limit : Nat) (h : detect v = DOUBLE) :
    fromString flt v (detect v) wp limit = .fail := by rw [h]; rfl

/-- the two cases above do occur -/
theorem C03_refuted : detect "3000000000".toList = UINT32 ∧ detect "3.14159265".toList = INT32_NANO ∧
    detect "12345678.12345678".toList = DOUBLE := by decide +kernel

/-- C03 refuted for texts that only look like an address, date, time, GUID or digest. -/
theorem C03_other_refusals (flt : CStr → List UInt8) (wp limit : Nat) :
    (detect "1.2.3.400".toList = IPv4 ∧ fromString flt "1.2.3.400".toList IPv4 wp limit = .fail) ∧
    (detect "9999-99-99".toList = UNIX_DATE ∧ fromString flt "9999-99-99".toList UNIX_DATE wp limit = .fail) ∧
    (detect "2020-99-01 00:00:00".toList = UNIX_TIME ∧ fromString flt "2020-99-01 00:00:00".toList UNIX_TIME wp limit = .fail) ∧
    (detect "2020-13-01 00:00:00.000".toList = UNIX_TIME64_MSEC ∧
      fromString flt "2020-13-01 00:00:00.000".toList UNIX_TIME64_MSEC wp limit = .fail) ∧
    (detect "--00000000000000000000000000000000--".toList = GUID ∧
      fromString flt "--00000000000000000000000000000000--".toList GUID wp limit = .fail) ∧
    (detect "0x012345678901234567890123456789012345678a".toList = SHA1 ∧
      fromString flt "0x012345678901234567890123456789012345678a".toList SHA1 wp limit = .fail) := by
  have h1 : scanIPv4 "1.2.3.400".toList = .fail := by decide +kernel
  have h2 : scanUnixDate "9999-99-99".toList = .fail := by decide +kernel
  have h3 : scanUnixTime "2020-99-01 00:00:00".toList = .fail := by decide +kernel
  have h4 : scanUnixTime64msec "2020-13-01 00:00:00.000".toList = .fail := by decide +kernel
  have h5 : (scanHex "--00000000000000000000000000000000--".toList 16).1 = 0 := by decide +kernel
  have h6 : (scanHex "0x012345678901234567890123456789012345678a".toList 20).1 = 0 := by decide +kernel
  refine ⟨⟨by decide +kernel, ?_⟩, ⟨by decide +kernel, ?_⟩, ⟨by decide +kernel, ?_⟩, ⟨by decide +kernel, ?_⟩,
    ⟨by decide +kernel, ?_⟩, ⟨by decide +kernel, ?_⟩⟩ <;> simp only [fromString]
  · rw [h1]; rfl
  · rw [h2]; rfl
  · rw [h3]; rfl
  · rw [h4]; rfl
  · rw [h5]; rfl
  · rw [h6]; rfl

/-- Detected numbers whose conversion is undefined (arithmetic overflow). -/
theorem C03_undefined (flt : CStr → List UInt8) (wp limit : Nat) :
    (detect "5000.".toList = INT32_MICRO ∧ fromString flt "5000.".toList INT32_MICRO wp limit = .ub) ∧
    (detect "2147483648-".toList = INT32 ∧ fromString flt "2147483648-".toList INT32 wp limit = .ub) ∧
    (detect "-9999999999999999999".toList = INT64 ∧ fromString flt "-9999999999999999999".toList INT64 wp limit = .ub) := by
  have h1 : str2dec "5000.".toList 6 = .ub := by decide +kernel
  have h2 : atoi "2147483648-".toList = .ub := by decide +kernel
  have h3 : scanInt64 "-9999999999999999999".toList = .ub := by decide +kernel
  refine ⟨⟨by decide +kernel, ?_⟩, ⟨by decide +kernel, ?_⟩, ⟨by decide +kernel, ?_⟩⟩ <;> simp only [fromString]
  · rw [h1]; rfl
  · rw [h2]; rfl
  · rw [h3]; rfl

/-- the guard of `C03_never_refused_partial` is met by ordinary texts -/
example : detect "-17".toList = INT32 ∧ detect "0.25".toList = INT32_CENTI ∧ detect "99999999999".toList = INT64 ∧
    detect "18446744073709551615".toList = DOUBLE ∧ detect "9999999999999999999".toList = UINT64 ∧ detect "hello".toList = STRING ∧ detect "deadbeef".toList = HEX := by
  decide +kernel

end BX
