import Verif.Lemmas.Image
namespace BX
open XBT Spec

theorem headBytes_length (a b c : Int) : (headBytes a b c).length = 8 := by simp [headBytes, leN_length, le32]

/-- lengths of the pieces written by the creator -/
macro "lens" : tactic => `(tactic| (simp only [headBytes_length, le32_length, leN_length, List.length_append, List.length_cons, List.length_nil, List.length_replicate] at *))

/-- find the bytes in a memory made by several writes -/
macro "hasput" : tactic => `(tactic| repeat (first | exact Has.self _ _ _ | assumption | refine Has.frame ?_ (by lens; omega)))

/-! ### the search of the reader -/

theorem bsearchO_eq (cmp : Nat → Out Int) (c : Nat → Int) (B hi : Nat) (h : ∀ M, M < hi → cmp M = .ok (c M)) :
    bsearchO cmp B hi = match bsearch c B hi with | .hit M => .ok (M : Int) | .miss _ => .ok (-1) := by
  fun_induction bsearch c B hi with
  | case1 B hi hlt M h0 =>
    rw [bsearchO, dif_pos hlt]
    show (match cmp M with | .ok c => if c < 0 then bsearchO cmp B M else if c > 0 then bsearchO cmp (M + 1) hi else .ok (M : Int) | .fail => .fail | .ub => .ub) = _
    rw [h M (by omega)]
    simp only [h0]
    rfl
  | case2 B hi hlt M h0 hn ih =>
    rw [bsearchO, dif_pos hlt]
    show (match cmp M with | .ok c => if c < 0 then bsearchO cmp B M else if c > 0 then bsearchO cmp (M + 1) hi else .ok (M : Int) | .fail => .fail | .ub => .ub) = _
    rw [h M (by omega)]
    simp only [if_pos hn]
    exact ih (fun k hk => h k (by omega))
  | case3 B hi hlt M h0 hn ih =>
    rw [bsearchO, dif_pos hlt]
    show (match cmp M with | .ok c => if c < 0 then bsearchO cmp B M else if c > 0 then bsearchO cmp (M + 1) hi else .ok (M : Int) | .fail => .fail | .ub => .ub) = _
    rw [h M (by omega)]
    simp only [if_neg hn]
    rw [if_pos (by omega)]
    exact ih h
  | case4 B hi hlt => rw [bsearchO, dif_neg hlt]

/-! ### storing a table -/

/-- what the loop of `WriteChildSymbols` leaves in memory -/
theorem writeSyms_spec (limit x : Nat) (t : SymTab) (ra ta : Nat) (m : Mem) (wp : Nat) (m' : Mem) (wp' : Nat)
    (h : writeSyms limit x t ra ta m wp = .ok (m', wp')) (h1 : ra + 4 * t.length ≤ ta) (h2 : ta + t.length ≤ wp) :
    wp ≤ wp' ∧ (0 < t.length → wp' ≤ limit) ∧
    (∀ a, a < wp → ¬ (ra ≤ a ∧ a < ra + 4 * t.length) → ¬ (ta ≤ a ∧ a < ta + t.length) → m' a = m a) ∧
    (∀ i (hi : i < t.length), ∃ w : Nat, wp ≤ w ∧ w + t[i].1.length + 1 ≤ wp' ∧ Has m' (ra + 4 * i) (le32 ((w : Int) - x)) ∧
      Has m' (ta + i) [t[i].2.code] ∧ Has m' w (t[i].1 ++ [0])) := by
  induction t generalizing ra ta m wp with
  | nil =>
    unfold writeSyms at h
    cases h
    exact ⟨Nat.le_refl _, by simp, fun _ _ _ _ => rfl, by simp⟩
  | cons e es ih =>
    unfold writeSyms at h
    obtain ⟨m1, hm1, h⟩ := Out.bind_eq_ok h
    obtain ⟨m2, hm2, h⟩ := Out.bind_eq_ok h
    obtain ⟨m3, hm3, h⟩ := Out.bind_eq_ok h
    obtain ⟨rfl, hl1⟩ := put_ok hm1
    obtain ⟨rfl, hl2⟩ := put_ok hm2
    obtain ⟨rfl, hl3⟩ := put_ok hm3
    simp only [List.length_cons] at h1 h2
    obtain ⟨i1, i2, i3, i4⟩ := ih (ra + 4) (ta + 1) _ _ h (by omega) (by omega)
    have hb1 : Has m' ra (le32 ((wp : Int) - x)) := by
      refine Has.congr ?_ (fun a ha1 ha2 => i3 a ?_ ?_ ?_)
      · hasput
      all_goals lens; omega
    have hb2 : Has m' ta [e.2.code] := by
      refine Has.congr ?_ (fun a ha1 ha2 => i3 a ?_ ?_ ?_)
      · hasput
      all_goals lens; omega
    have hb3 : Has m' wp (e.1 ++ [0]) := by
      refine Has.congr ?_ (fun a ha1 ha2 => i3 a ?_ ?_ ?_)
      · hasput
      all_goals lens; omega
    refine ⟨by omega, ?_, ?_, ?_⟩
    · intro _
      by_cases h0 : 0 < es.length
      · exact i2 h0
      · have : es = [] := List.length_eq_zero_iff.mp (by omega)
        subst this
        unfold writeSyms at h
        cases h
        lens; omega
    · intro a ha hr ht
      simp only [List.length_cons] at hr ht
      rw [i3 a (by omega) (by omega) (by omega)]
      rw [memPut_frame _ _ _ _ (by lens; omega), memPut_frame _ _ _ _ (by lens; omega), memPut_frame _ _ _ _ (by lens; omega)]
    · intro i hi
      cases i with
      | zero => exact ⟨wp, Nat.le_refl _, by simpa using i1, hb1, hb2, hb3⟩
      | succ i =>
        obtain ⟨w, w1, w2, w3, w4, w5⟩ := i4 i (by simpa using hi)
        refine ⟨w, by omega, w2, ?_, ?_, w5⟩
        · rw [show ra + 4 * (i + 1) = ra + 4 + 4 * i by omega]; exact w3
        · rw [show ta + (i + 1) = ta + 1 + i by omega]; exact w4

/-- the table stored at `x` with the references at `refs` can be read by `f` -/
structure Stored (f : Img) (x refs stop : Nat) (t : SymTab) : Prop where
  small : f.size < 2147483648
  inside : stop ≤ f.size
  refs_le : refs + 5 * t.length ≤ stop
  sym : ∀ i (hi : i < t.length), ∃ w : Nat, refs + 5 * t.length ≤ w ∧ w + t[i].1.length + 1 ≤ stop ∧
    Has f.mem (refs + 4 * i) (le32 ((w : Int) - x)) ∧ Has f.mem (refs + 4 * t.length + i) [t[i].2.code] ∧ Has f.mem w (t[i].1 ++ [0])


theorem Stored.loop {f : Img} {x refs stop : Nat} {t : SymTab} (h : Stored f x refs stop t) (hx : x ≤ refs) (hn : ∀ e ∈ t, NoNul e.1) (n s : Nat)
    (hs : s + n = t.length) : f.loadLoop x refs (refs + 4 * t.length + t.length) stop n s = .ok true := by
  induction n generalizing s with
  | zero => rfl
  | succ n ih =>
    obtain ⟨w, w1, w2, w3, w4, w5⟩ := h.sym s (by omega)
    have hsm := h.small
    have hin := h.inside
    unfold Img.loadLoop
    rw [f.i32_ok w3 (by omega) (by unfold isI32 INT_MIN INT_MAX; omega) _ (by omega)]
    simp only [Out.ok_bind]
    rw [if_neg (by omega), if_neg (by omega)]
    rw [f.strnlen_ok w5 (hn _ (List.getElem_mem _)) (by omega) _ (by omega) _ (by omega)]
    simp only [Out.ok_bind]
    rw [if_neg (by omega)]
    have := ih (s + 1) (by omega)
    rw [show ((s : Int) + 1) = ((s + 1 : Nat) : Int) by omega]
    exact this

theorem Stored.getSymbol {f : Img} {x refs stop : Nat} {t : SymTab} (h : Stored f x refs stop t) (hx : x ≤ refs) (hn : ∀ e ∈ t, NoNul e.1)
    (tc : Int) (i : Nat) (hi : i < t.length) : f.getSymbol ⟨x, t.length, some refs, tc⟩ i = .ok t[i].1 := by
  obtain ⟨w, w1, w2, w3, w4, w5⟩ := h.sym i hi
  have hsm := h.small
  have hin := h.inside
  unfold Img.getSymbol
  rw [if_neg (by omega), if_neg (by simp only; omega)]
  simp only
  rw [f.i32_ok w3 (by omega) (by unfold isI32 INT_MIN INT_MAX; omega) _ (by omega)]
  simp only [Out.ok_bind]
  exact f.str_ok w5 (hn _ (List.getElem_mem _)) (by omega) _ (by omega)

theorem Stored.getType {f : Img} {x refs stop : Nat} {t : SymTab} (h : Stored f x refs stop t)
    (i : Nat) (hi : i < t.length) : f.getType ⟨x, t.length, some refs, t.length⟩ i = .ok t[i].2.code := by
  obtain ⟨w, w1, w2, w3, w4, w5⟩ := h.sym i hi
  have hin := h.inside
  unfold Img.getType
  rw [if_neg (by omega), if_neg (by simp only; omega)]
  exact f.u8_ok w4 (by omega) _ (by simp only; omega)

/-- all pieces of a stored table with its item -/
structure StoredItem (f : Img) (x stop : Nat) (tag : Int) (t : SymTab) : Prop where
  al : x % 4 = 0
  st : Stored f x (x + 36) stop t
  nm : Has f.mem x (leN 2 (toU 16 tag))
  pc : Has f.mem (x + 2) (leN 2 (toU 16 2))
  cc : Has f.mem (x + 4) (le32 0)
  ln : Has f.mem (x + 8) (le32 ((aa stop : Int) - x))
  n1 : Has f.mem (x + 12) (leN 2 (toU 16 (-5)))
  t1 : Has f.mem (x + 14) [INT32.code]
  d1 : Has f.mem (x + 16) (le32 t.length)
  n2 : Has f.mem (x + 20) (leN 2 (toU 16 (-7)))
  t2 : Has f.mem (x + 22) [INT32.code]
  d2 : Has f.mem (x + 24) (le32 t.length)
  vt : Has f.mem (x + 28) [BLOB.code]
  sz : Has f.mem (x + 32) (le32 ((stop : Int) - ((x + 36 : Nat) : Int)))

/-- the table as the reader keeps it -/
def rtab (x : Nat) (t : SymTab) : RTab := if t.length = 0 then { x := x } else ⟨x, t.length, some ((x + 36 : Nat) : Int), t.length⟩

theorem rtab_count (x : Nat) (t : SymTab) : (rtab x t).count = t.length := by
  unfold rtab
  split
  · next h => rw [h]; rfl
  · rfl

theorem StoredItem.getParam5 {f : Img} {x stop : Nat} {tag : Int} {t : SymTab} (h : StoredItem f x stop tag t) :
    f.getParamByName x (-5) = .ok (some ((x + 12 : Nat) : Int)) := by
  have h1 := h.st.inside
  have h2 := h.st.refs_le
  unfold Img.getParamByName Img.paramcount
  rw [f.i16_ok h.pc (by omega) (by omega) _ (by omega)]
  simp only [Out.ok_bind]
  show f.findParam (-5) (1 + 1) _ = _
  unfold Img.findParam
  rw [f.i16_ok h.n1 (by omega) (by omega) _ (by omega)]
  simp only [Out.ok_bind, Out.pure_eq, if_true]
  congr 1

theorem StoredItem.getParam7 {f : Img} {x stop : Nat} {tag : Int} {t : SymTab} (h : StoredItem f x stop tag t) :
    f.getParamByName x (-7) = .ok (some ((x + 20 : Nat) : Int)) := by
  have h1 := h.st.inside
  have h2 := h.st.refs_le
  unfold Img.getParamByName Img.paramcount
  rw [f.i16_ok h.pc (by omega) (by omega) _ (by omega)]
  simp only [Out.ok_bind]
  show f.findParam (-7) (1 + 1) _ = _
  unfold Img.findParam
  rw [f.i16_ok h.n1 (by omega) (by omega) _ (by omega)]
  simp only [Out.ok_bind, Out.pure_eq]
  rw [if_neg (by omega)]
  unfold Img.findParam
  rw [f.i16_ok h.n2 (by omega) (by omega) _ (by omega)]
  simp only [Out.ok_bind, Out.pure_eq, if_true]
  congr 2

theorem StoredItem.getInt {f : Img} {x stop : Nat} {tag : Int} {t : SymTab} (h : StoredItem f x stop tag t) (hl : t.length ≤ MAX_SYMBOL_COUNT) :
    f.pGetInt x (some ((x + 12 : Nat) : Int)) = .ok t.length ∧ f.pGetInt x (some ((x + 20 : Nat) : Int)) = .ok t.length := by
  have h1 := h.st.inside
  have h2 := h.st.refs_le
  unfold MAX_SYMBOL_COUNT at hl
  unfold Img.pGetInt Img.pType Img.pData
  constructor
  · simp only
    rw [f.u8_ok h.t1 (by omega) _ (by omega)]
    simp only [Out.ok_bind, if_true]
    exact f.i32_ok h.d1 (by omega) (by unfold isI32 INT_MIN INT_MAX; omega) _ (by omega)
  · simp only
    rw [f.u8_ok h.t2 (by omega) _ (by omega)]
    simp only [Out.ok_bind, if_true]
    exact f.i32_ok h.d2 (by omega) (by unfold isI32 INT_MIN INT_MAX; omega) _ (by omega)

theorem StoredItem.getBinary {f : Img} {x stop : Nat} {tag : Int} {t : SymTab} (h : StoredItem f x stop tag t) :
    f.getBinary x = .ok (some (((x + 36 : Nat) : Int), (stop : Int) - ((x + 36 : Nat) : Int))) := by
  have h1 := h.st.inside
  have h2 := h.st.refs_le
  have h3 := h.st.small
  have hal := h.al
  unfold Img.getBinary Img.valueAt Img.paramcount Img.childcount
  rw [f.i16_ok h.pc (by omega) (by omega) _ (by omega)]
  simp only [Out.ok_bind]
  rw [f.i32_ok h.cc (by omega) (by unfold isI32 INT_MIN INT_MAX; omega) _ (by omega)]
  simp only [Out.ok_bind, Out.pure_eq]
  rw [f.u8_ok h.vt (by omega) _ (by omega)]
  simp only [Out.ok_bind, if_true]
  have ha : aaI ((x : Int) + 12 + 2 * 8 + 0 * 4 + 1) = ((x + 32 : Nat) : Int) := by unfold aaI; omega
  rw [ha, f.i32_ok h.sz (by omega) (by unfold isI32 INT_MIN INT_MAX; omega) _ (by omega)]
  simp only [Out.ok_bind]
  congr 3

theorem StoredItem.load {f : Img} {x stop : Nat} {tag : Int} {t : SymTab} (h : StoredItem f x stop tag t) (hl : t.length ≤ MAX_SYMBOL_COUNT)
    (hn : ∀ e ∈ t, NoNul e.1) : f.load x = .ok (rtab x t) := by
  have h2 := h.st.refs_le
  unfold Img.load
  rw [h.getParam5]
  simp only [Out.ok_bind]
  rw [(h.getInt hl).1]
  simp only [Out.ok_bind]
  rw [if_neg (by unfold INT32_NULL; omega)]
  unfold rtab
  by_cases h0 : t.length = 0
  · rw [if_pos (by omega), if_pos h0]; rfl
  · rw [if_neg (by omega), if_neg h0, h.getParam7]
    simp only [Out.ok_bind]
    rw [(h.getInt hl).2]
    simp only [Out.ok_bind]
    rw [if_neg (by unfold INT32_NULL; omega), h.getBinary]
    simp only [Out.ok_bind]
    have e1 : ((x + 36 : Nat) : Int) + ((stop : Int) - ((x + 36 : Nat) : Int)) = stop := by omega
    rw [e1, if_neg (by omega)]
    have := h.st.loop (by omega) hn t.length 0 (by omega)
    rw [Int.toNat_natCast]
    rw [show f.loadLoop x ((x + 36 : Nat) : Int) (((x + 36 : Nat) : Int) + 4 * (t.length : Int) + (t.length : Int)) stop t.length 0 = .ok true from this]
    simp only [Out.ok_bind, if_true, Out.pure_eq]

/-- `WriteChildSymbols` stores the table; nothing below the new item changes -/
theorem writeSymbols_spec (limit : Nat) (tag : Int) (t : SymTab) (m : Mem) (wp : Nat) (m' : Mem) (wp' x : Nat)
    (h : writeSymbols limit tag t m wp = .ok (m', wp', x)) :
    ∃ stop, x = aa wp ∧ wp' = aa stop ∧ x + 36 ≤ stop ∧ (stop ≤ limit) ∧ (∀ a, a < x → m' a = m a) ∧
      ∀ f : Img, f.size < 2147483648 → stop ≤ f.size → (∀ a, x ≤ a → a < stop → f.mem a = m' a) → StoredItem f x stop tag t := by
  unfold writeSymbols putDesc at h
  obtain ⟨m1, hm1, h⟩ := Out.bind_eq_ok h
  obtain ⟨m2, hm2, h⟩ := Out.bind_eq_ok h
  obtain ⟨n1, hn1, hm2⟩ := Out.bind_eq_ok hm2
  obtain ⟨n2, hn2, hm2⟩ := Out.bind_eq_ok hm2
  obtain ⟨m3, hm3, h⟩ := Out.bind_eq_ok h
  obtain ⟨n3, hn3, hm3⟩ := Out.bind_eq_ok hm3
  obtain ⟨n4, hn4, hm3⟩ := Out.bind_eq_ok hm3
  obtain ⟨m4, hm4, h⟩ := Out.bind_eq_ok h
  obtain ⟨⟨m5, stop⟩, hm5, h⟩ := Out.bind_eq_ok h
  obtain ⟨m6, hm6, h⟩ := Out.bind_eq_ok h
  obtain ⟨m7, hm7, h⟩ := Out.bind_eq_ok h
  simp only [Out.pure_eq, Out.ok.injEq, Prod.mk.injEq] at h
  obtain ⟨rfl, rfl, rfl⟩ := h
  have hx : aa wp % 4 = 0 := aa_mod wp
  generalize aa wp = x at *
  have hsa : aa (x + 29) = x + 32 := by unfold aa; omega
  rw [hsa] at hm5 hm6
  obtain ⟨rfl, l1⟩ := put_ok hm1
  obtain ⟨rfl, l2⟩ := put_ok hn1
  obtain ⟨rfl, l3⟩ := put_ok hn2
  obtain ⟨rfl, l4⟩ := put_ok hm2
  obtain ⟨rfl, l5⟩ := put_ok hn3
  obtain ⟨rfl, l6⟩ := put_ok hn4
  obtain ⟨rfl, l7⟩ := put_ok hm3
  obtain ⟨rfl, l8⟩ := put_ok hm4
  obtain ⟨rfl, l9⟩ := put_ok hm6
  obtain ⟨rfl, l10⟩ := put_ok hm7
  obtain ⟨s1, s2, s3, s4⟩ := writeSyms_spec _ _ _ _ _ _ _ _ _ hm5 (by omega) (by omega)
  have hlim : stop ≤ limit := by
    by_cases h0 : 0 < t.length
    · exact s2 h0
    · have : t = [] := List.length_eq_zero_iff.mp (by omega)
      subst this
      unfold writeSyms at hm5
      cases hm5
      lens; omega
  dsimp only at l9 l10 ⊢
  refine ⟨stop, rfl, rfl, by omega, hlim, ?_, ?_⟩
  · intro a ha
    rw [memPut_frame _ _ _ _ (by lens; omega), memPut_frame _ _ _ _ (by lens; omega), s3 a (by omega) (by omega) (by omega)]
    rw [memPut_frame _ _ _ _ (by lens; omega), memPut_frame _ _ _ _ (by lens; omega), memPut_frame _ _ _ _ (by lens; omega),
      memPut_frame _ _ _ _ (by lens; omega), memPut_frame _ _ _ _ (by lens; omega), memPut_frame _ _ _ _ (by lens; omega),
      memPut_frame _ _ _ _ (by lens; omega), memPut_frame _ _ _ _ (by lens; omega)]
  · intro f hf1 hf2 hag
    have key : ∀ a bs, x ≤ a → a + bs.length ≤ stop → Has (memPut (memPut m5 (x + 32) (le32 ((stop : Int) - ((x + 32 + 4 : Nat) : Int)))) (x + 8) (le32 ((aa stop : Int) - x))) a bs → Has f.mem a bs :=
      fun a bs h1 h2 h3 => h3.congr (fun i i1 i2 => hag i (by omega) (by omega))
    have key5 : ∀ a bs, a + bs.length ≤ x + 36 → x ≤ a → (a + bs.length ≤ x + 8 ∨ x + 12 ≤ a) → a + bs.length ≤ x + 32 →
        Has (memPut (memPut (memPut (memPut (memPut (memPut (memPut (memPut m x (headBytes tag 2 0)) (x + 12) (leN 2 (toU 16 (-5)))) (x + 12 + 2) [INT32.code])
          (x + 12 + 4) (le32 t.length)) (x + 20) (leN 2 (toU 16 (-7)))) (x + 20 + 2) [INT32.code]) (x + 20 + 4) (le32 t.length)) (x + 28) [BLOB.code]) a bs →
        Has f.mem a bs := by
      intro a bs h1 h2 h3 h4 h5
      apply key _ _ h2 (by omega)
      refine Has.frame (Has.frame ?_ (by lens; omega)) (by lens; omega)
      exact h5.congr (fun i i1 i2 => s3 i (by omega) (by omega) (by omega))
    have hh : Has (memPut m x (headBytes tag 2 0)) x (headBytes tag 2 0) := Has.self _ _ _
    have hh : ∀ a bs, Has (memPut m x (headBytes tag 2 0)) a bs → a + bs.length ≤ x + 8 → x ≤ a → Has f.mem a bs := by
      intro a bs h1 h2 h3
      apply key5 _ _ (by omega) (by omega) (by omega) (by omega)
      hasput
    have hhd := Has.self m x (headBytes tag 2 0)
    unfold headBytes at hhd
    rw [Has.append, Has.append] at hhd
    simp only [leN_length, List.length_append] at hhd
    refine ⟨hx, ⟨hf1, hf2, by omega, ?_⟩, ?_, ?_, ?_, ?_, ?_, ?_, ?_, ?_, ?_, ?_, ?_, ?_⟩
    · intro i hi
      obtain ⟨w, w1, w2, w3, w4, w5⟩ := s4 i hi
      refine ⟨w, by omega, w2, ?_, ?_, ?_⟩
      · apply key _ _ (by omega) (by lens; omega)
        rw [show x + 36 + 4 * i = x + 32 + 4 + 4 * i by omega]
        hasput
      · apply key _ _ (by omega) (by lens; omega)
        rw [show x + 36 + 4 * t.length + i = x + 32 + 4 + 4 * t.length + i by omega]
        hasput
      · apply key _ _ (by omega) (by lens; omega)
        hasput
    · exact hh _ _ hhd.1.1 (by lens; omega) (by omega)
    · exact hh _ _ hhd.1.2 (by lens; omega) (by omega)
    · exact hh _ _ hhd.2 (by lens; omega) (by omega)
    · apply key _ _ (by omega) (by lens; omega); hasput
    · apply key5 _ _ (by lens; omega) (by omega) (by lens; omega) (by lens; omega); hasput
    · apply key5 _ _ (by lens; omega) (by omega) (by lens; omega) (by lens; omega); hasput
    · apply key5 _ _ (by lens; omega) (by omega) (by lens; omega) (by lens; omega); hasput
    · apply key5 _ _ (by lens; omega) (by omega) (by lens; omega) (by lens; omega); hasput
    · apply key5 _ _ (by lens; omega) (by omega) (by lens; omega) (by lens; omega); hasput
    · apply key5 _ _ (by lens; omega) (by omega) (by lens; omega) (by lens; omega); hasput
    · apply key5 _ _ (by lens; omega) (by omega) (by lens; omega) (by lens; omega); hasput
    · apply key _ _ (by omega) (by lens; omega); hasput

end BX
