import Verif.Lemmas.Text
namespace BX
open XBT Spec

theorem bind_eq_ok {α β : Type} {x : Out α} {f : α → Out β} {b : β} (h : x.bind f = .ok b) :
    ∃ a, x = .ok a ∧ f a = .ok b := by
  cases x with
  | ok a => exact ⟨a, rfl, h⟩
  | fail => cases h
  | ub => cases h

theorem peek_cons {p : CStr} {c : Char} (h : peek p = c) (hc : c ≠ '\x00') : p = c :: p.tail := by
  cases p with
  | nil => exact absurd h.symm hc
  | cons a as => simp [peek] at h; subst h; rfl

/-- inversion of a successful scan with a small non-negative result -/
theorem scanInt_octet {p rest : CStr} {v : Int} (h : scanInt p = .ok (v, rest)) (hv : 0 ≤ v ∧ v < 256) :
    ∃ t, OctetText v.toNat t ∧ p = t ++ rest := by
  rcases scanSigned_ok_or_fail 2147483647 p with hf | ⟨s, neg, ds, r, hs, hd, hr, rfl⟩
  · unfold scanInt at h; rw [hf] at h; cases h
  · have hrun := scanSigned_run 2147483647 s ds r neg hs hd hr
    unfold scanInt at h
    rw [hrun] at h
    split at h
    · cases h
      refine ⟨s ++ (if neg then ['-'] else []) ++ ds, ⟨s, neg, ds, hs, hd, rfl, ?_, ?_⟩, by simp⟩
      · cases neg <;> simp at hv ⊢ <;> omega
      · intro hn; subst hn; simp at hv ⊢ <;> omega
    · cases h

theorem decLoop_eq (v : Nat) (acc : CStr) (h : 0 < v) : decLoop v acc = dec v ++ acc := by
  induction v using Nat.strongRecOn generalizing acc with
  | _ v ih =>
    rw [decLoop, if_neg (by omega), dec]
    split
    · rename_i h10
      have h0 : v / 10 = 0 := by omega
      rw [h0, decLoop, if_pos rfl, Nat.mod_eq_of_lt h10]; rfl
    · rw [ih (v / 10) (by omega) _ (by omega)]; simp

theorem digits_unique (as bs : CStr) (ha : Digits as) (hb : Digits bs) (hv : digitsValue as = digitsValue bs)
    (za : ∀ r, as = '0' :: r → r = []) (zb : ∀ r, bs = '0' :: r → r = []) : as = bs := by
  have char_eq : ∀ c d : Char, isDig c = true → isDig d = true → c.toNat - 48 = d.toNat - 48 → c = d := by
    intro c d hc hd h
    simp only [isDig, Bool.and_eq_true, decide_eq_true_eq] at hc hd
    have e1 : '0'.toNat = 48 := by decide
    rw [e1] at hc hd
    have : c.toNat = d.toNat := by omega
    exact Char.ext (UInt32.toNat_inj.mp this)
  -- bounds of the value of digit strings
  have ub : ∀ l : CStr, (∀ c ∈ l, isDig c = true) → digitsValue l < 10 ^ l.length := by
    intro l
    induction l with
    | nil => intro _; simp [digitsValue]
    | cons c cs ih =>
      intro h
      have hc := h c (by simp)
      simp only [isDig, Bool.and_eq_true, decide_eq_true_eq] at hc
      have e9 : '9'.toNat = 57 := by decide
      rw [e9] at hc
      have := ih (fun x hx => h x (by simp [hx]))
      simp only [digitsValue, List.length_cons, Nat.pow_succ]
      have h9 : c.toNat - 48 ≤ 9 := by omega
      have := Nat.mul_le_mul_right (10 ^ cs.length) h9
      omega
  have eq_of_len : ∀ l m : CStr, l.length = m.length → (∀ c ∈ l, isDig c = true) → (∀ c ∈ m, isDig c = true) →
      digitsValue l = digitsValue m → l = m := by
    intro l
    induction l with
    | nil => intro m hl _ _ _; cases m with
      | nil => rfl
      | cons => simp at hl
    | cons c cs ih =>
      intro m hl h1 h2 hv
      cases m with
      | nil => simp at hl
      | cons d ds =>
        simp only [List.length_cons, Nat.add_right_cancel_iff] at hl
        have u1 := ub cs (fun x hx => h1 x (by simp [hx]))
        have u2 := ub ds (fun x hx => h2 x (by simp [hx]))
        simp only [digitsValue] at hv
        rw [hl] at hv u1
        have hP : 0 < 10 ^ ds.length := Nat.pow_pos (by omega)
        have hq : c.toNat - 48 = d.toNat - 48 := by
          have a1 : ((c.toNat - 48) * 10 ^ ds.length + digitsValue cs) / 10 ^ ds.length = c.toNat - 48 := by
            rw [Nat.mul_comm, Nat.mul_add_div hP, Nat.div_eq_of_lt u1]; rfl
          have a2 : ((d.toNat - 48) * 10 ^ ds.length + digitsValue ds) / 10 ^ ds.length = d.toNat - 48 := by
            rw [Nat.mul_comm, Nat.mul_add_div hP, Nat.div_eq_of_lt u2]; rfl
          rw [← a1, hv, a2]
        have hc := char_eq c d (h1 c (by simp)) (h2 d (by simp)) hq
        subst hc
        rw [ih ds hl (fun x hx => h1 x (by simp [hx])) (fun x hx => h2 x (by simp [hx])) (by omega)]
  -- a numeral without leading zero of length n+1, n > 0, is at least 10^n
  have lb : ∀ l : CStr, Digits l → (∀ r, l = '0' :: r → r = []) → l.length ≤ 1 ∨ 10 ^ (l.length - 1) ≤ digitsValue l := by
    intro l hl hz
    cases l with
    | nil => left; simp
    | cons c cs =>
      cases cs with
      | nil => left; simp
      | cons d ds =>
        right
        have hc := hl.2 c (by simp)
        have hne : c ≠ '0' := by rintro rfl; have := hz _ rfl; cases this
        have : 1 ≤ c.toNat - 48 := by
          rcases Nat.eq_zero_or_pos (c.toNat - 48) with h0 | h0
          · exact absurd (char_eq c '0' hc (by decide) (by rw [h0]; decide)) hne
          · exact h0
        simp only [digitsValue, List.length_cons, Nat.add_sub_cancel]
        have := Nat.mul_le_mul_right (10 ^ (ds.length + 1)) this
        omega
  apply eq_of_len as bs ?_ ha.2 hb.2 hv
  have l1 := lb as ha za
  have l2 := lb bs hb zb
  have u1 := ub as ha.2
  have u2 := ub bs hb.2
  have n1 : 0 < as.length := List.length_pos_iff.mpr ha.1
  have n2 : 0 < bs.length := List.length_pos_iff.mpr hb.1
  rcases Nat.lt_trichotomy as.length bs.length with h | h | h
  · exfalso
    have : 10 ^ as.length ≤ 10 ^ (bs.length - 1) := Nat.pow_le_pow_right (by omega) (by omega)
    omega
  · exact h
  · exfalso
    have : 10 ^ bs.length ≤ 10 ^ (as.length - 1) := Nat.pow_le_pow_right (by omega) (by omega)
    omega

/-! detection of numbers -/

theorem fold_digits (ds : CStr) : ∀ (s : Det), (∀ c ∈ ds, isDig c = true) → s.X0 = s.X → valFrom s.X ds < 2 ^ 64 →
    ∃ ex, ds.foldl Det.step s = { s with
      X := valFrom s.X ds, X0 := valFrom s.X ds, EX := ex,
      digits := s.digits + ds.length, decimals := if s.dots > 0 then s.decimals + ds.length else s.decimals } := by
  induction ds with
  | nil => intro s _ hX _; exact ⟨s.EX, by cases s; simp at hX; simp [hX]⟩
  | cons c cs ih =>
    intro s hd hX hb
    have hc := hd c (by simp)
    simp only [valFrom_cons] at hb
    have hle := valFrom_le (s.X * 10 + digVal c) cs
    have hlt : s.X * 10 + digVal c < 2 ^ 64 := by omega
    have hstep : Det.step s c = { s with
        X := s.X * 10 + digVal c, X0 := s.X * 10 + digVal c,
        EX := (s.EX * 10 + digVal c) % 2 ^ 64, digits := s.digits + 1,
        decimals := if s.dots > 0 then s.decimals + 1 else s.decimals } := by
      unfold Det.step
      rw [if_neg (isDig_ne_dash hc), if_pos hc]
      simp only [Nat.mod_eq_of_lt hlt]
      rw [if_neg (show ¬ (s.X * 10 + digVal c < s.X0) by rw [hX]; omega)]
    simp only [List.foldl_cons]
    rw [hstep]
    obtain ⟨ex, he⟩ := ih { s with
        X := s.X * 10 + digVal c, X0 := s.X * 10 + digVal c,
        EX := (s.EX * 10 + digVal c) % 2 ^ 64, digits := s.digits + 1,
        decimals := if s.dots > 0 then s.decimals + 1 else s.decimals } (fun x hx => hd x (by simp [hx])) rfl hb
    refine ⟨ex, ?_⟩
    rw [he]
    simp only [valFrom_cons, List.length_cons, Det.mk.injEq, true_and, and_true]
    constructor
    · omega
    · split <;> omega

theorem detect_eq (value : CStr) (h0 : value ≠ []) (hx : cAt value 1 ≠ 'x') :
    detect value = (value.foldl Det.step {}).decide false value.length value := by
  unfold detect
  split
  · exact absurd rfl h0
  · exact absurd rfl hx
  · rfl

theorem step_dash (s : Det) (h : s.exponentSeen = false) : Det.step s '-' =
    { s with negative := s.negative + 1, dashes := s.dashes + 1 } := by
  unfold Det.step; simp [h]

theorem step_dot (s : Det) : Det.step s '.' = { s with dots := s.dots + 1 } := by
  unfold Det.step
  rw [if_neg (by decide), if_neg (by decide), if_neg (by decide), if_neg (by decide), if_pos rfl]

theorem cAt_mem {p : CStr} {i : Nat} (h : i < p.length) : cAt p i ∈ p := by
  unfold cAt
  rw [List.getD_eq_getElem?_getD, List.getElem?_eq_getElem h]
  exact List.getElem_mem h

theorem cAt_ge {p : CStr} {i : Nat} (h : p.length ≤ i) : cAt p i = '\x00' := by
  unfold cAt
  rw [List.getD_eq_getElem?_getD, List.getElem?_eq_none h]; rfl

/-- `p[1]` of a text of digits (possibly with a leading minus) is no 'x' -/
theorem cAt_not_x (p : CStr) (h : ∀ c ∈ p, isDig c = true ∨ c = '-' ∨ c = '.') (i : Nat) : cAt p i ≠ 'x' := by
  rcases Nat.lt_or_ge i p.length with hi | hi
  · rcases h _ (cAt_mem hi) with h1 | h1 | h1
    · intro he; rw [he] at h1; revert h1; decide
    · rw [h1]; decide
    · rw [h1]; decide
  · rw [cAt_ge hi]; decide

theorem digits_len_bound (n k : Nat) (h : 10 ^ k ≤ n) (h2 : (dec n).length ≤ k) : False := by
  have := dec_length_ge n k h; omega

theorem detect_printInt_small (v : Int) (h1 : -2147483648 ≤ v) (h2 : v ≤ 2147483647) : detect (printInt v) = INT32 := by
  have hlen : (dec v.natAbs).length ≤ 10 := dec_length_le _ 10 (by omega) (by omega)
  have hpos : 0 < (dec v.natAbs).length := List.length_pos_iff.mpr (dec_ne_nil _)
  have hx : cAt (printInt v) 1 ≠ 'x' := by
    apply cAt_not_x
    intro c hc
    unfold printInt at hc
    split at hc
    · rcases List.mem_cons.mp hc with rfl | hc
      · right; left; rfl
      · left; exact dec_digits _ c hc
    · left; exact dec_digits _ c hc
  rw [detect_eq _ (by unfold printInt; split <;> simp [dec_ne_nil]) hx]
  by_cases hv : v < 0
  · have hp : printInt v = '-' :: dec v.natAbs := by simp [printInt, hv]
    rw [hp, List.foldl_cons, step_dash _ rfl]
    obtain ⟨ex, he⟩ := fold_digits (dec v.natAbs) { ({} : Det) with negative := 0 + 1, dashes := 0 + 1 } (dec_digits _) rfl
      (by show valFrom 0 _ < _; rw [valFrom_dec]; omega)
    rw [he]
    have hX : valFrom ({ ({} : Det) with negative := 0 + 1, dashes := 0 + 1 } : Det).X (dec v.natAbs) = v.natAbs := valFrom_dec _
    rw [hX]
    unfold Det.decide
    simp only [List.length_cons]
    rw [if_neg (by simp), if_neg (by omega), if_pos (by simp; omega), if_neg (by simp), if_pos (by simp; omega)]
  · have hp : printInt v = dec v.natAbs := by simp [printInt, hv]
    rw [hp]
    obtain ⟨ex, he⟩ := fold_digits (dec v.natAbs) {} (dec_digits _) rfl
      (by show valFrom 0 _ < _; rw [valFrom_dec]; omega)
    rw [he]
    have hX : valFrom ({} : Det).X (dec v.natAbs) = v.natAbs := valFrom_dec _
    rw [hX]
    unfold Det.decide
    rw [if_neg (by simp), if_neg (by show ¬ ((dec v.natAbs).length = 10 ∧ 0 + (dec v.natAbs).length = 8 ∧ _); omega), if_pos (by simp; omega), if_pos (by simp; omega)]

/-! fixed point -/

theorem decimalsOf_pos (t : XBT) (k : Nat) (h : decimalsOf t = some k) : 1 ≤ k ∧ k ≤ 9 := by
  cases t <;> simp [decimalsOf] at h <;> omega

theorem printDecimal_eq (k : Nat) (V : Int) (h : V ≠ INT_MIN) :
    printDecimal k V = .ok (printInt (Int.tdiv V (10 ^ k : Nat)) ++ '.' :: padDec k (V.natAbs % 10 ^ k)) := by
  unfold printDecimal; rw [if_neg h]

theorem tdiv_nonneg_eq' (a b : Int) (h : 0 ≤ a) : Int.tdiv a b = a / b := Int.tdiv_eq_ediv_of_nonneg h

theorem natAbs_tdiv (V : Int) (m : Nat) : (Int.tdiv V m).natAbs = V.natAbs / m := by
  rw [Int.natAbs_tdiv]; rfl

theorem padDec_length (k n : Nat) (hk : 0 < k) (h : n < 10 ^ k) : (padDec k n).length = k := by
  have := dec_length_le n k hk h
  unfold padDec; simp; omega
theorem padDec_digits (k n : Nat) : ∀ c ∈ padDec k n, isDig c = true := by
  intro c hc
  unfold padDec at hc
  rcases List.mem_append.mp hc with hc | hc
  · have := List.eq_of_mem_replicate hc; subst this; decide
  · exact dec_digits n c hc
theorem valFrom_zeros (x j : Nat) : valFrom x (List.replicate j '0') = x * 10 ^ j := by
  rw [valFrom_eq]
  have : ∀ j, digitsValue (List.replicate j '0') = 0 := by
    intro j; induction j with
    | zero => rfl
    | succ j ih => simp [List.replicate_succ, digitsValue, ih]
  simp [this]
theorem valFrom_padDec (k n x : Nat) (hk : 0 < k) (h : n < 10 ^ k) : valFrom x (padDec k n) = x * 10 ^ k + n := by
  have hl := padDec_length k n hk h
  rw [valFrom_eq, hl]
  have : digitsValue (padDec k n) = n := by
    have h1 := valFrom_eq 0 (padDec k n)
    unfold padDec at h1
    rw [valFrom_append, valFrom_zeros, Nat.zero_mul, valFrom_dec] at h1
    unfold padDec; omega
  rw [this]

theorem decDigitsLoop_run (n : Option Nat) (v : Nat) (ds rest : CStr) (hd : ∀ c ∈ ds, isDig c = true)
    (hr : NoDigit rest) (hn : ∀ m, n = some m → ds.length = m) (hb : valFrom v ds + 48 ≤ 2147483647) :
    decDigitsLoop n v (ds ++ rest) = .ok (valFrom v ds, 0, rest) := by
  induction ds generalizing n v with
  | nil =>
    have hz : n.getD 0 = 0 := by
      cases n with
      | none => rfl
      | some m => have := hn m rfl; simp at this; simp [← this]
    cases rest with
    | nil => simp [decDigitsLoop, hz]
    | cons c cs =>
      have : isDig c = false := hr
      simp [decDigitsLoop, this, hz]
  | cons c cs ih =>
    have hc := hd c (by simp)
    have hn0 : n ≠ some 0 := by intro h; have := hn 0 h; simp at this
    simp only [valFrom_cons] at hb
    have hle := valFrom_le (v * 10 + digVal c) cs
    have hcd : c.toNat = 48 + digVal c := by
      simp only [isDig, Bool.and_eq_true, decide_eq_true_eq] at hc
      have : '0'.toNat = 48 := by decide
      unfold digVal; omega
    simp only [List.cons_append, decDigitsLoop]
    rw [if_pos ⟨hc, hn0⟩, if_pos (by omega)]
    rw [ih (n.map (· - 1)) _ (fun x hx => hd x (by simp [hx])) ?_ hb]
    · rfl
    · intro m hm
      cases n with
      | none => cases hm
      | some j => have := hn j rfl; simp at hm this; omega

theorem str2dec_print (k : Nat) (V : Int) (hk : 1 ≤ k ∧ k ≤ 9) (hb : V.natAbs + 48 ≤ 2147483647)
    (hs : 0 ≤ V ∨ V ≤ -(10 ^ k : Nat)) :
    str2dec (printInt (Int.tdiv V (10 ^ k : Nat)) ++ '.' :: padDec k (V.natAbs % 10 ^ k)) k = .ok V := by
  have hP : 0 < 10 ^ k := Nat.pow_pos (by omega)
  have hmod : V.natAbs % 10 ^ k < 10 ^ k := Nat.mod_lt _ hP
  have hval : V.natAbs / 10 ^ k * 10 ^ k + V.natAbs % 10 ^ k = V.natAbs := by
    rw [Nat.mul_comm]; exact Nat.div_add_mod _ _
  have hq : V.natAbs / 10 ^ k ≤ V.natAbs := Nat.div_le_self _ _
  have hdotNo : NoDigit ('.' :: padDec k (V.natAbs % 10 ^ k)) := by show isDig '.' = false; decide
  -- the two loops
  have run1 := decDigitsLoop_run none 0 (dec (V.natAbs / 10 ^ k)) ('.' :: padDec k (V.natAbs % 10 ^ k)) (dec_digits _) hdotNo
    (by intro m h; cases h) (by rw [valFrom_dec]; omega)
  rw [valFrom_dec] at run1
  have hpv := valFrom_padDec k (V.natAbs % 10 ^ k) (V.natAbs / 10 ^ k) (by omega) hmod
  rw [hval] at hpv
  have run2 := decDigitsLoop_run (some k) (V.natAbs / 10 ^ k) (padDec k (V.natAbs % 10 ^ k)) [] (padDec_digits _ _) (by decide)
    (by intro m h; cases h; exact padDec_length _ _ (by omega) hmod) (by rw [hpv]; omega)
  rw [hpv, List.append_nil] at run2
  have hnabs : (Int.tdiv V (10 ^ k : Nat)).natAbs = V.natAbs / 10 ^ k := natAbs_tdiv V (10 ^ k)
  by_cases hneg : V < 0
  · have hV : V ≤ -(10 ^ k : Nat) := by rcases hs with h | h <;> omega
    have hqneg : Int.tdiv V (10 ^ k : Nat) < 0 := by
      have h1 : 0 < V.natAbs / 10 ^ k := Nat.div_pos (by omega) hP
      obtain ⟨n, rfl⟩ : ∃ n : Nat, V = -(n : Int) := ⟨V.natAbs, by omega⟩
      rw [Int.neg_tdiv, tdiv_nonneg_eq' _ _ (by omega)]
      rw [Int.natAbs_neg, Int.natAbs_natCast] at h1
      generalize 10 ^ k = P at h1 ⊢
      rw [← Int.natCast_ediv]
      omega
    unfold str2dec printInt
    rw [if_pos hqneg, hnabs]
    simp only [List.cons_append, peek, List.headD_cons, beq_self_eq_true, if_true, List.tail_cons]
    rw [run1]
    simp only [Out.bind_ok, List.headD_cons, if_true, List.tail_cons]
    rw [run2]
    simp only [Out.bind_ok, scale10]
    congr 1; omega
  · have hqpos : ¬ Int.tdiv V (10 ^ k : Nat) < 0 := by
      rw [tdiv_nonneg_eq' _ _ (by omega)]
      have := Int.ediv_nonneg (show 0 ≤ V by omega) (show (0:Int) ≤ (10^k : Nat) by omega)
      omega
    unfold str2dec printInt
    rw [if_neg hqpos, hnabs]
    have hpk : (peek (dec (V.natAbs / 10 ^ k) ++ '.' :: padDec k (V.natAbs % 10 ^ k)) == '-') = false := by
      cases hd : dec (V.natAbs / 10 ^ k) with
      | nil => exact absurd hd (dec_ne_nil _)
      | cons c cs =>
        have := dec_digits (V.natAbs / 10 ^ k) c (by rw [hd]; simp)
        simpa [peek] using isDig_ne_dash this
    simp only [hpk, Bool.false_eq_true, if_false]
    rw [run1]
    simp only [Out.bind_ok, peek, List.headD_cons, if_true, List.tail_cons]
    rw [run2]
    simp only [Out.bind_ok, scale10]
    congr 1; omega

theorem detect_decimal (t : XBT) (k : Nat) (V : Int) (ht : decimalsOf t = some k) (hb : V.natAbs ≤ 2147483647) :
    detect (printInt (Int.tdiv V (10 ^ k : Nat)) ++ '.' :: padDec k (V.natAbs % 10 ^ k)) = t := by
  have hk := decimalsOf_pos t k ht
  have hP : 0 < 10 ^ k := Nat.pow_pos (by omega)
  have hmod : V.natAbs % 10 ^ k < 10 ^ k := Nat.mod_lt _ hP
  have hval : V.natAbs / 10 ^ k * 10 ^ k + V.natAbs % 10 ^ k = V.natAbs := by
    rw [Nat.mul_comm]; exact Nat.div_add_mod _ _
  have hq : V.natAbs / 10 ^ k ≤ V.natAbs := Nat.div_le_self _ _
  have hpl := padDec_length k (V.natAbs % 10 ^ k) (by omega) hmod
  have hpv := valFrom_padDec k (V.natAbs % 10 ^ k) (V.natAbs / 10 ^ k) (by omega) hmod
  rw [hval] at hpv
  have hnabs : (Int.tdiv V (10 ^ k : Nat)).natAbs = V.natAbs / 10 ^ k := natAbs_tdiv V (10 ^ k)
  generalize hD : dec (V.natAbs / 10 ^ k) = D
  generalize hF : padDec k (V.natAbs % 10 ^ k) = F at *
  have hDd : ∀ c ∈ D, isDig c = true := by rw [← hD]; exact dec_digits _
  have hFd : ∀ c ∈ F, isDig c = true := by rw [← hF]; exact padDec_digits _ _
  have hDne : 0 < D.length := by rw [← hD]; exact List.length_pos_iff.mpr (dec_ne_nil _)
  have hDv : valFrom 0 D = V.natAbs / 10 ^ k := by rw [← hD]; exact valFrom_dec _
  have hp : printInt (Int.tdiv V (10 ^ k : Nat)) = (if Int.tdiv V (10 ^ k : Nat) < 0 then '-' :: D else D) := by
    unfold printInt; rw [hnabs, hD]
  rw [hp]
  generalize hn : (decide (Int.tdiv V (10 ^ k : Nat) < 0)) = neg
  have : (if Int.tdiv V (10 ^ k : Nat) < 0 then '-' :: D else D) = (if neg then ['-'] else []) ++ D := by
    rw [← hn]
    generalize Int.tdiv V (10 ^ k : Nat) = Q
    by_cases h : Q < 0 <;> simp [h]
  rw [this]
  -- text is sign ++ D ++ '.' ++ F
  have hall : ∀ c ∈ (if neg then ['-'] else []) ++ D ++ '.' :: F, isDig c = true ∨ c = '-' ∨ c = '.' := by
    intro c hc
    rcases List.mem_append.mp hc with hc | hc
    · rcases List.mem_append.mp hc with hc | hc
      · cases neg <;> simp at hc; right; left; exact hc
      · left; exact hDd c hc
    · rcases List.mem_cons.mp hc with hc | hc
      · right; right; exact hc
      · left; exact hFd c hc
  rw [detect_eq _ (by simp) (cAt_not_x _ hall 1)]
  -- no dash at position 4
  have h4 : cAt ((if neg then ['-'] else []) ++ D ++ '.' :: F) 4 ≠ '-' := by
    have hDot : ∀ i, cAt (D ++ '.' :: F) i ≠ '-' := by
      intro i
      rcases Nat.lt_or_ge i (D ++ '.' :: F).length with hi | hi
      · have := cAt_mem hi
        rcases List.mem_append.mp this with hc | hc
        · exact isDig_ne_dash (hDd _ hc)
        · rcases List.mem_cons.mp hc with hc | hc
          · rw [hc]; decide
          · exact isDig_ne_dash (hFd _ hc)
      · rw [cAt_ge hi]; decide
    cases neg
    · simpa using hDot 4
    · simpa [cAt] using hDot 3
  -- run the loop
  have hrun : ∃ ex, ((if neg then ['-'] else []) ++ D ++ '.' :: F).foldl Det.step {} =
      { ({} : Det) with
        negative := if neg then 1 else 0, dashes := if neg then 1 else 0, dots := 1, X := V.natAbs,
        X0 := V.natAbs, EX := ex, digits := D.length + F.length, decimals := F.length } := by
    have hsgn : (if neg then ['-'] else []).foldl Det.step {} =
        { ({} : Det) with negative := if neg then 1 else 0, dashes := if neg then 1 else 0 } := by
      cases neg <;> rfl
    rw [List.foldl_append, List.foldl_append, hsgn, List.foldl_cons]
    obtain ⟨e1, h1⟩ := fold_digits D { ({} : Det) with negative := if neg then 1 else 0, dashes := if neg then 1 else 0 } hDd rfl
      (by show valFrom 0 D < _; rw [hDv]; omega)
    rw [h1, step_dot]
    obtain ⟨e2, h2⟩ := fold_digits F { ({} : Det) with
        negative := if neg then 1 else 0, dashes := if neg then 1 else 0,
        dots := 1, X := V.natAbs / 10 ^ k, X0 := V.natAbs / 10 ^ k, EX := e1, digits := D.length, decimals := 0 } hFd rfl
      (by show valFrom (V.natAbs / 10 ^ k) F < _; rw [hpv]; omega)
    refine ⟨e2, ?_⟩
    have hX : valFrom (({ ({} : Det) with negative := if neg then 1 else 0, dashes := if neg then 1 else 0 } : Det).X) D = V.natAbs / 10 ^ k := hDv
    rw [hX]
    simp only [Nat.zero_add, Nat.lt_irrefl, gt_iff_lt, if_false] at h2 ⊢
    rw [h2]
    simp only [hpv, Nat.lt_add_one, if_true, Nat.zero_lt_one, Nat.zero_add]
  obtain ⟨ex, hrun⟩ := hrun
  rw [hrun]
  unfold Det.decide
  rw [if_neg (by simp), if_neg (by intro h; exact h4 h.2.2.1), if_neg (by simp)]
  have hcore : (D.length + F.length > 0 ∧ (1:Nat) = 1 ∧ (0:Nat) = 0 ∧ (if neg then 1 else 0) ≤ 1 ∧ (0:Nat) = 0 ∧ (0:Nat) = 0
      ∧ (0:Nat) = 0 ∧ (false) = false
      ∧ (((if neg then 1 else 0) = 0 ∧ V.natAbs ≤ 0x7fffffff) ∨ ((if neg then 1 else 0) = 1 ∧ V.natAbs ≤ 0x80000000))) := by
    refine ⟨by omega, rfl, rfl, by split <;> omega, rfl, rfl, rfl, rfl, ?_⟩
    cases neg
    · left; exact ⟨rfl, by omega⟩
    · right; exact ⟨rfl, by omega⟩
  simp only [hcore, true_and, hpl]
  clear hcore hrun h4 hall this hn hp hDv hDne hFd hDd hpv hpl hF hD hnabs hq hval hmod hP hk
  cases t <;> simp [decimalsOf] at ht <;> subst ht <;> simp

/-! IPv4 -/

theorem detect_ipv4 (ip : Nat) (h : ip < 2 ^ 32) : detect (printIPv4 ip) = IPv4 := by
  unfold printIPv4
  have hlen : ∀ n, n < 256 → 1 ≤ (dec n).length ∧ (dec n).length ≤ 3 := by
    intro n hn
    exact ⟨List.length_pos_iff.mpr (dec_ne_nil n), dec_length_le n 3 (by omega) (by omega)⟩
  have la := hlen (ip / 2 ^ 24) (by omega)
  have lb := hlen (ip / 2 ^ 16 % 256) (by omega)
  have lc := hlen (ip / 2 ^ 8 % 256) (by omega)
  have ld := hlen (ip % 256) (by omega)
  have da := dec_digits (ip / 2 ^ 24)
  have db := dec_digits (ip / 2 ^ 16 % 256)
  have dc := dec_digits (ip / 2 ^ 8 % 256)
  have dd := dec_digits (ip % 256)
  generalize dec (ip / 2 ^ 24) = A at *
  generalize dec (ip / 2 ^ 16 % 256) = B at *
  generalize dec (ip / 2 ^ 8 % 256) = C at *
  generalize dec (ip % 256) = D at *
  have hall : ∀ c ∈ A ++ '.' :: B ++ '.' :: C ++ '.' :: D, isDig c = true ∨ c = '-' ∨ c = '.' := by
    intro c hc
    simp only [List.mem_append, List.mem_cons, List.append_assoc, List.cons_append] at hc
    rcases hc with hc | hc | hc | hc | hc | hc | hc
    · exact .inl (da c hc)
    · exact .inr (.inr hc)
    · exact .inl (db c hc)
    · exact .inr (.inr hc)
    · exact .inl (dc c hc)
    · exact .inr (.inr hc)
    · exact .inl (dd c hc)
  rw [detect_eq _ (by simp) (cAt_not_x _ hall 1)]
  -- bounds of accumulated values
  have bnd : ∀ (x : Nat) (l : CStr), (∀ c ∈ l, isDig c = true) → l.length ≤ 3 → valFrom x l < (x + 1) * 1000 := by
    intro x l hl hlen
    rw [valFrom_eq]
    have hu : digitsValue l < 10 ^ l.length := by
      clear hlen
      induction l with
      | nil => simp [digitsValue]
      | cons c cs ih =>
        have hc := hl c (by simp)
        simp only [isDig, Bool.and_eq_true, decide_eq_true_eq] at hc
        have e9 : '9'.toNat = 57 := by decide
        rw [e9] at hc
        have := ih (fun x hx => hl x (by simp [hx]))
        simp only [digitsValue, List.length_cons, Nat.pow_succ]
        have h9 : c.toNat - 48 ≤ 9 := by omega
        have := Nat.mul_le_mul_right (10 ^ cs.length) h9
        omega
    have hp : 10 ^ l.length ≤ 1000 := Nat.le_trans (Nat.pow_le_pow_right (by omega) hlen) (by omega)
    have := Nat.mul_le_mul_left x hp
    rw [Nat.add_mul]; omega
  have b1 := bnd 0 A da la.2
  have b2 := bnd (valFrom 0 A) B db lb.2
  have b3 := bnd (valFrom (valFrom 0 A) B) C dc lc.2
  have b4 := bnd (valFrom (valFrom (valFrom 0 A) B) C) D dd ld.2
  have seg : ∀ (st : Det) (l : CStr), (∀ c ∈ l, isDig c = true) → st.X0 = st.X → valFrom st.X l < 2 ^ 64 →
      ∃ ex dm, ('.' :: l).foldl Det.step st = { st with
        dots := st.dots + 1, X := valFrom st.X l, X0 := valFrom st.X l, EX := ex, digits := st.digits + l.length, decimals := dm } := by
    intro st l hl hX hb
    obtain ⟨e, he⟩ := fold_digits l { st with dots := st.dots + 1 } hl hX hb
    refine ⟨e, if st.dots + 1 > 0 then st.decimals + l.length else st.decimals, ?_⟩
    rw [List.foldl_cons, step_dot]
    exact he
  have hrun : ∃ x ex dm, (A ++ '.' :: B ++ '.' :: C ++ '.' :: D).foldl Det.step {} =
      { ({} : Det) with dots := 3, X := x, X0 := x, EX := ex, digits := A.length + B.length + C.length + D.length, decimals := dm } := by
    rw [List.foldl_append, List.foldl_append, List.foldl_append]
    obtain ⟨e1, h1⟩ := fold_digits A {} da rfl (by show valFrom 0 A < _; omega)
    obtain ⟨e2, m2, h2⟩ := seg (A.foldl Det.step {}) B db (by rw [h1]) (by rw [h1]; show valFrom (valFrom 0 A) B < _; omega)
    have x2 : ((('.' :: B).foldl Det.step (A.foldl Det.step {}))).X = valFrom (valFrom 0 A) B := by rw [h2, h1]
    obtain ⟨e3, m3, h3⟩ := seg (('.' :: B).foldl Det.step (A.foldl Det.step {})) C dc (by rw [h2]) (by rw [x2]; omega)
    have x3 : ((('.' :: C).foldl Det.step (('.' :: B).foldl Det.step (A.foldl Det.step {})))).X = valFrom (valFrom (valFrom 0 A) B) C := by
      rw [h3, x2]
    obtain ⟨e4, m4, h4⟩ := seg (('.' :: C).foldl Det.step (('.' :: B).foldl Det.step (A.foldl Det.step {}))) D dd (by rw [h3]) (by rw [x3]; omega)
    refine ⟨valFrom (valFrom (valFrom (valFrom 0 A) B) C) D, e4, m4, ?_⟩
    rw [h4, h3, h2, h1]
    simp only [Nat.zero_add]
  obtain ⟨x, ex, dm, hrun⟩ := hrun
  rw [hrun]
  unfold Det.decide
  rw [if_pos]
  simp only [List.length_append, List.length_cons, true_and, and_true]
  omega

end BX
