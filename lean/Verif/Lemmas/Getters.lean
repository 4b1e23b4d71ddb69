import Verif.Spec.Getters
import Verif.Lemmas.Text
import Verif.Lemmas.Image
/-
Lemmas for the integer getters and the visits.
-/
namespace BX
open XBT Spec

theorem numeral_scan {w : CStr} {v : Int} (h : StartsNum w v) (hv : -9223372036854775808 < v ∧ v < 9223372036854775808) : ∃ r, scanInt64 w = .ok (v, r) := by
  obtain ⟨s, neg, ds, rest, h1, h2, h3, rfl, rfl⟩ := h
  have := scanSigned_run 9223372036854775807 s ds rest neg h1 h2 h3
  refine ⟨rest, ?_⟩
  unfold scanInt64
  rw [this, if_pos]
  cases neg
  · simp only [Bool.false_eq_true, if_false] at hv; omega
  · simp only [if_true] at hv; omega

/-- a text that does not start with a number is refused -/
theorem nonum_scan {w : CStr} (h : ∀ v, ¬ StartsNum w v) : scanInt64 w = .fail := by
  obtain ⟨s, h1, h2, -⟩ := skipSpaces_decomp w
  have split : ∀ p : CStr, isDig (peek p) = true → ∃ ds rest, Digits ds ∧ NoDigit rest ∧ p = ds ++ rest := by
    intro p hp
    induction p with
    | nil => exact absurd hp (by decide)
    | cons c cs ih =>
      have hc : isDig c = true := hp
      by_cases hn : isDig (peek cs) = true
      · obtain ⟨ds, rest, ⟨a, b⟩, e, rfl⟩ := ih hn
        exact ⟨c :: ds, rest, ⟨by simp, by simpa [hc] using b⟩, e, rfl⟩
      · exact ⟨[c], cs, ⟨by simp, by simp [hc]⟩, by simpa [NoDigit] using hn, rfl⟩
  unfold scanInt64 scanSigned
  simp only
  by_cases hm : (peek (skipSpaces w) == '-') = true
  · rw [if_pos hm]
    refine if_neg fun hd => ?_
    obtain ⟨ds, rest, a, b, e⟩ := split _ hd
    refine h (-(digitsValue ds : Int)) ⟨s, true, ds, rest, h1, a, b, ?_, rfl⟩
    rw [h2]
    cases hk : skipSpaces w with
    | nil => rw [hk] at hm; exact absurd hm (by decide)
    | cons c cs =>
      rw [hk] at hm e
      have : c = '-' := by simpa [peek] using hm
      rw [show cs = ds ++ rest from e, this]; simp
  · rw [if_neg hm]
    refine if_neg fun hd => ?_
    obtain ⟨ds, rest, a, b, e⟩ := split _ hd
    exact h (digitsValue ds) ⟨s, false, ds, rest, h1, a, b, by rw [h2, e]; simp, rfl⟩

theorem takeWhile_digits {ds rest : CStr} (h : ∀ c ∈ ds, isDig c = true) (hr : NoDigit rest) : (ds ++ rest).takeWhile isDig = ds := by
  induction ds with
  | nil =>
    cases rest with
    | nil => rfl
    | cons c cs => unfold NoDigit peek at hr; simp only [List.nil_append, List.takeWhile_cons]; simp at hr; simp [hr]
  | cons c cs ih =>
    have hc := h c (by simp)
    simp only [List.cons_append, List.takeWhile_cons, hc, if_true, ih (fun c hm => h c (by simp [hm]))]

theorem numeral_atoi {w : CStr} {v : Int} (h : StartsNum w v) (hv : isI32 v) : atoi w = .ok v := by
  obtain ⟨s, neg, ds, rest, h1, h2, h3, rfl, rfl⟩ := h
  obtain ⟨c, cs, rfl⟩ : ∃ c cs, ds = c :: cs := by
    cases ds with
    | nil => exact absurd rfl h2.1
    | cons c cs => exact ⟨c, cs, rfl⟩
  have hc : isDig c = true := h2.2 c (by simp)
  have hval : (c :: cs).foldl (fun x c => x * 10 + digVal c) 0 = digitsValue (c :: cs) := by
    have := valFrom_eq 0 (c :: cs); unfold valFrom at this; omega
  have htw := takeWhile_digits h2.2 h3
  unfold atoi
  cases neg
  · simp only [Bool.false_eq_true, if_false, List.append_nil] at *
    rw [List.append_assoc, skipSpaces_append h1 (.inl (by show isSpace c = false; exact isDig_not_space hc))]
    have e1 : (peek (c :: cs ++ rest) == '-') = false := by
      show (c == '-') = false
      cases hq : c == '-' with
      | false => rfl
      | true => rw [beq_iff_eq] at hq; subst hq; revert hc; decide
    have e2 : (peek (c :: cs ++ rest) == '+') = false := by
      show (c == '+') = false
      cases hq : c == '+' with
      | false => rfl
      | true => rw [beq_iff_eq] at hq; subst hq; revert hc; decide
    simp only [e1, e2, Bool.or_self, Bool.false_eq_true, if_false]
    rw [htw, hval, if_pos hv]
  · simp only [if_true] at *
    rw [List.append_assoc, List.append_assoc, skipSpaces_append h1 (.inl (by show isSpace '-' = false; decide))]
    have e1 : (peek (['-'] ++ (c :: cs ++ rest)) == '-') = true := rfl
    have e3 : (['-'] ++ (c :: cs ++ rest)).tail = c :: cs ++ rest := rfl
    simp only [e1, e3, Bool.true_or, if_true]
    rw [htw, hval, if_pos hv]

theorem code_of_some : ∀ {c : UInt8} {t : XBT}, ofCode c = some t → c = t.code := by
  intro c t h
  unfold ofCode at h
  have hlt : c.toNat < 26 := by
    have := (List.getElem?_eq_some_iff.1 h).1
    have hl : XBT.all.length = 26 := by decide
    omega
  have key : ∀ n : Fin 26, ∀ t, XBT.all[n.val]? = some t → UInt8.ofNat n.val = t.code := by decide
  have := key ⟨c.toNat, hlt⟩ t h
  simpa using this

theorem content_typed {f : Img} {t : XBT} {p : Int} {d : Data} (h : f.content t p = .ok d) : d.type = t := by
  unfold Img.content at h
  repeat' split at h
  all_goals first
    | (obtain ⟨b, -, h'⟩ := Out.bind_eq_ok h; simp only [Out.pure_eq, Out.ok.injEq] at h'; rw [← h'])
    | (obtain ⟨n, -, h'⟩ := Out.bind_eq_ok h
       split at h'
       · exact absurd h' (by simp)
       · obtain ⟨b, -, h''⟩ := Out.bind_eq_ok h'; simp only [Out.pure_eq, Out.ok.injEq] at h''; rw [← h''])
    | exact absurd h (by simp)

/-- where the value of an item is -/
def valuePos (t : XBT) (va : Int) : Int := if is4 t then aaI (va + 1) else if is8 t then aa8I (va + 1) else if t = STRING then va + 1 else aaI (va + 1)

theorem getData_form {f : Img} {x : Int} {d : Data} (h : f.getData x = .ok d) : ∃ va, f.valueAt x = .ok va ∧ f.u8 va = .ok d.type.code ∧ f.content d.type (valuePos d.type va) = .ok d := by
  unfold Img.getData at h
  obtain ⟨va, h1, h⟩ := Out.bind_eq_ok h
  obtain ⟨c, h2, h⟩ := Out.bind_eq_ok h
  cases ht : ofCode c with
  | none => rw [ht] at h; exact absurd h (by simp)
  | some t =>
    rw [ht] at h
    simp only at h
    have hc : f.content t (valuePos t va) = .ok d := by
      unfold valuePos
      split at h
      · rename_i q; rw [if_pos q]; exact h
      · rename_i q; rw [if_neg q]
        split at h
        · rename_i q; rw [if_pos q]; exact h
        · rename_i q; rw [if_neg q]
          split at h
          · rename_i q; rw [if_pos q]; exact h
          · rename_i q; rw [if_neg q]; exact h
    have htt := content_typed hc
    subst htt
    exact ⟨va, h1, by rw [h2, code_of_some ht], hc⟩

theorem pGetData_form {f : Img} {x p : Int} {d : Data} (h : f.pGetData x p = .ok d) : f.pType p = .ok d.type.code ∧
    (is4 d.type = true → f.content d.type (p + 4) = .ok d) ∧ (is4 d.type = false → ∃ r, f.pData p = .ok r ∧ f.content d.type (x + r) = .ok d) := by
  unfold Img.pGetData at h
  obtain ⟨c, h2, h⟩ := Out.bind_eq_ok h
  cases ht : ofCode c with
  | none => rw [ht] at h; exact absurd h (by simp)
  | some t =>
    rw [ht] at h
    simp only at h
    split at h
    · rename_i q
      have htt := content_typed h
      subst htt
      exact ⟨by rw [h2, code_of_some ht], fun _ => h, fun hn => by rw [q] at hn; exact absurd hn (by simp)⟩
    · rename_i q
      obtain ⟨r, h3, h⟩ := Out.bind_eq_ok h
      have htt := content_typed h
      subst htt
      exact ⟨by rw [h2, code_of_some ht], fun hn => absurd hn q, fun _ => ⟨r, h3, h⟩⟩

theorem content_int32 {f : Img} {p : Int} {v : Int} (h : f.content INT32 p = .ok ⟨INT32, le32 v⟩) (hv : isI32 v) : f.i32 p = .ok v := by
  unfold Img.content at h
  rw [if_pos (by decide)] at h
  obtain ⟨b, h1, h⟩ := Out.bind_eq_ok h
  simp only [Out.pure_eq, Out.ok.injEq, Data.mk.injEq, true_and] at h
  subst h
  unfold Img.i32
  rw [h1]
  unfold isI32 INT_MIN INT_MAX at hv
  show Out.ok (ofU 32 (rdN (le32 v))) = _
  unfold le32
  rw [rdN_leN, Nat.mod_eq_of_lt (by simpa using toU_lt 32 v), ofU_toU 32 (by omega) v (by omega) (by omega)]

theorem content_int64 {f : Img} {p : Int} {v : Int} (h : f.content INT64 p = .ok ⟨INT64, le64 v⟩) (hv : isI64 v) (s : Statics) : (IPtr.file p).read64 f s = .ok v := by
  unfold Img.content at h
  rw [if_neg (by decide), if_pos (by decide)] at h
  obtain ⟨b, h1, h⟩ := Out.bind_eq_ok h
  simp only [Out.pure_eq, Out.ok.injEq, Data.mk.injEq, true_and] at h
  subst h
  unfold IPtr.read64
  simp only
  rw [h1]
  unfold isI64 INT64_MIN INT64_MAX at hv
  show Out.ok (ofU 64 (rdN (le64 v))) = _
  unfold le64
  rw [rdN_leN, Nat.mod_eq_of_lt (by simpa using toU_lt 64 v), ofU_toU 64 (by omega) v (by omega) (by omega)]

theorem content_text {f : Img} {p : Int} {w : BStr} (h : f.content STRING p = .ok ⟨STRING, w ++ [0]⟩) : f.str p = .ok w := by
  unfold Img.content at h
  rw [if_neg (by decide), if_neg (by decide), if_pos rfl] at h
  obtain ⟨b, h1, h⟩ := Out.bind_eq_ok h
  simp only [Out.pure_eq, Out.ok.injEq, Data.mk.injEq, true_and, List.append_cancel_right_eq] at h
  rw [h1, h]

theorem calls_item32 {s s' : Statics} (h : Calls s s') {v : Int} (hv : s.item32 = some v) : s'.item32 = some v := by
  induction h with
  | none => exact hv
  | attr _ e ih =>
    unfold Img.pGetIntPtr at e
    split at e
    · simp only [Out.pure_eq, Out.ok.injEq, Prod.mk.injEq] at e; rw [← e.1]; exact ih
    · obtain ⟨t, -, e⟩ := Out.bind_eq_ok e
      split at e
      · simp only [Out.pure_eq, Out.ok.injEq, Prod.mk.injEq] at e; rw [← e.1]; exact ih
      · split at e
        · obtain ⟨_, -, e⟩ := Out.bind_eq_ok e
          obtain ⟨_, -, e⟩ := Out.bind_eq_ok e
          obtain ⟨_, -, e⟩ := Out.bind_eq_ok e
          simp only [Out.pure_eq, Out.ok.injEq, Prod.mk.injEq] at e; rw [← e.1]; exact ih
        · simp only [Out.pure_eq, Out.ok.injEq, Prod.mk.injEq] at e; rw [← e.1]; exact ih
  | attr64 _ e ih =>
    unfold Img.pGetInt64Ptr at e
    split at e
    · simp only [Out.pure_eq, Out.ok.injEq, Prod.mk.injEq] at e; rw [← e.1]; exact ih
    · obtain ⟨t, -, e⟩ := Out.bind_eq_ok e
      split at e
      · simp only [Out.pure_eq, Out.ok.injEq, Prod.mk.injEq] at e; rw [← e.1]; exact ih
      · split at e
        · obtain ⟨_, -, e⟩ := Out.bind_eq_ok e
          obtain ⟨_, -, e⟩ := Out.bind_eq_ok e
          split at e
          · simp only [Out.pure_eq, Out.ok.injEq, Prod.mk.injEq] at e; rw [← e.1]; exact ih
          · simp only [Out.pure_eq, Out.ok.injEq, Prod.mk.injEq] at e; rw [← e.1]; exact ih
          · exact absurd e (by simp)
        · simp only [Out.pure_eq, Out.ok.injEq, Prod.mk.injEq] at e; rw [← e.1]; exact ih
  | item _ e ih =>
    unfold Img.getIntPtr at e
    split at e
    · exact absurd e (by simp)
    · obtain ⟨_, -, e⟩ := Out.bind_eq_ok e
      obtain ⟨_, -, e⟩ := Out.bind_eq_ok e
      rw [ih] at e
      split at e
      · simp only [Out.pure_eq, Out.ok.injEq, Prod.mk.injEq] at e; rw [← e.1]; exact ih
      · split at e
        · simp only [Out.pure_eq, Out.ok.injEq, Prod.mk.injEq] at e; rw [← e.1]; exact ih
        · simp only [Out.pure_eq, Out.ok.injEq, Prod.mk.injEq] at e; rw [← e.1]; exact ih
  | item64 _ e ih =>
    unfold Img.getInt64Ptr at e
    split at e
    · exact absurd e (by simp)
    · obtain ⟨_, -, e⟩ := Out.bind_eq_ok e
      obtain ⟨_, -, e⟩ := Out.bind_eq_ok e
      split at e
      · simp only [Out.pure_eq, Out.ok.injEq, Prod.mk.injEq] at e; rw [← e.1]; exact ih
      · split at e
        · obtain ⟨_, -, e⟩ := Out.bind_eq_ok e
          split at e
          · simp only [Out.pure_eq, Out.ok.injEq, Prod.mk.injEq] at e; rw [← e.1]; exact ih
          · simp only [Out.pure_eq, Out.ok.injEq, Prod.mk.injEq] at e; rw [← e.1]; exact ih
          · exact absurd e (by simp)
        · simp only [Out.pure_eq, Out.ok.injEq, Prod.mk.injEq] at e; rw [← e.1]; exact ih

/-! ### visits -/

theorem child_step {f : Img} {x : Int} {i : Nat} {y : Int} (h : f.getChildByIndex x i = .ok (some y)) : ∃ ca r, f.childrenAt x = .ok ca ∧ f.i32 (ca + 4 * (i : Int)) = .ok r ∧ x + r = y := by
  unfold Img.getChildByIndex at h
  obtain ⟨cc, -, h⟩ := Out.bind_eq_ok h
  split at h
  · simp at h
  · obtain ⟨ca, h1, h⟩ := Out.bind_eq_ok h
    obtain ⟨r, h2, h⟩ := Out.bind_eq_ok h
    simp only [Out.pure_eq, Out.ok.injEq, Option.some.injEq] at h
    exact ⟨ca, r, h1, h2, h⟩

/-- the calls of a visit as the items and depths they are made with -/
def seen (l : List Visit) : List (Int × Nat) := l.map fun v => (v.item, v.deep)

mutual
theorem forAll_tree {f : Img} : ∀ (t : XTree) (fuel deep : Nat), ItemTree f t → t.levels ≤ fuel → ∃ l, f.forAll fuel t.item deep = .ok l ∧ seen l = t.pre deep
  | .mk x ks, fuel, deep, h, hf => by
    unfold ItemTree at h
    unfold XTree.levels at hf
    obtain ⟨fuel, rfl⟩ : ∃ k, fuel = k + 1 := ⟨fuel - 1, by omega⟩
    obtain ⟨l, h1, h2⟩ := forAllFrom_tree ks x fuel deep 0 h.2 (by omega)
    refine ⟨l, ?_, by rw [h2]; unfold XTree.pre; rfl⟩
    unfold Img.forAll XTree.item
    simp only
    rw [h.1, Out.ok_bind]
    exact h1
theorem forAllFrom_tree {f : Img} : ∀ (ks : List XTree) (x : Int) (fuel deep i : Nat), ItemTrees f x i ks → itemsLevels ks ≤ fuel →
    ∃ l, f.forAllFrom fuel x deep ks.length i = .ok l ∧ seen l = itemsPre ks deep
  | [], x, fuel, deep, i, _, _ => ⟨[], by unfold Img.forAllFrom; rfl, by unfold itemsPre; rfl⟩
  | k :: ks, x, fuel, deep, i, h, hf => by
    unfold ItemTrees at h
    unfold itemsLevels at hf
    obtain ⟨ca, r, a1, a2, a3⟩ := child_step h.1
    obtain ⟨l1, b1, b2⟩ := forAll_tree k fuel (deep + 1) h.2.1 (by omega)
    obtain ⟨l2, c1, c2⟩ := forAllFrom_tree ks x fuel deep (i + 1) h.2.2 (by omega)
    refine ⟨{ item := k.item, deep := deep } :: l1 ++ l2, ?_, ?_⟩
    · unfold Img.forAllFrom
      simp only [List.length_cons]
      rw [a1, Out.ok_bind, a2, Out.ok_bind, a3, b1, Out.ok_bind, c1]
      rfl
    · unfold itemsPre seen
      rw [List.map_append, List.map_cons]
      show (k.item, deep) :: seen l1 ++ seen l2 = _
      rw [b2, c2]
end

mutual
theorem forAllPost_tree {f : Img} : ∀ (t : XTree) (fuel deep : Nat), ItemTree f t → t.levels ≤ fuel → ∃ l, f.forAllPost fuel t.item deep = .ok l ∧ seen l = t.post deep
  | .mk x ks, fuel, deep, h, hf => by
    unfold ItemTree at h
    unfold XTree.levels at hf
    obtain ⟨fuel, rfl⟩ : ∃ k, fuel = k + 1 := ⟨fuel - 1, by omega⟩
    obtain ⟨l, h1, h2⟩ := forAllPostFrom_tree ks x fuel deep 0 h.2 (by omega)
    refine ⟨l, ?_, by rw [h2]; unfold XTree.post; rfl⟩
    unfold Img.forAllPost XTree.item
    simp only
    rw [h.1, Out.ok_bind]
    exact h1
theorem forAllPostFrom_tree {f : Img} : ∀ (ks : List XTree) (x : Int) (fuel deep i : Nat), ItemTrees f x i ks → itemsLevels ks ≤ fuel →
    ∃ l, f.forAllPostFrom fuel x deep ks.length i = .ok l ∧ seen l = itemsPost ks deep
  | [], x, fuel, deep, i, _, _ => ⟨[], by unfold Img.forAllPostFrom; rfl, by unfold itemsPost; rfl⟩
  | k :: ks, x, fuel, deep, i, h, hf => by
    unfold ItemTrees at h
    unfold itemsLevels at hf
    obtain ⟨ca, r, a1, a2, a3⟩ := child_step h.1
    obtain ⟨l1, b1, b2⟩ := forAllPost_tree k fuel (deep + 1) h.2.1 (by omega)
    obtain ⟨l2, c1, c2⟩ := forAllPostFrom_tree ks x fuel deep (i + 1) h.2.2 (by omega)
    refine ⟨l1 ++ { item := k.item, deep := deep } :: l2, ?_, ?_⟩
    · unfold Img.forAllPostFrom
      simp only [List.length_cons]
      rw [a1, Out.ok_bind, a2, Out.ok_bind, a3, b1, Out.ok_bind, c1]
      rfl
    · unfold itemsPost seen
      rw [List.map_append, List.map_cons]
      show seen l1 ++ (k.item, deep) :: seen l2 = _
      rw [b2, c2]
end

/-- the calls of the third visit: the item and the items of the array up to its depth -/
def seenA (l : List Visit) : List (Int × List Int) := l.map fun v => (v.item, v.above.take (v.deep + 1))

/-- the array holds the path `up` (as far as it fits) -/
def HoldsPath (A : List Int) (up : List Int) : Prop := A.length = XML_MAX_DEEP ∧ A.take up.length = up.take XML_MAX_DEEP

theorem holds_set {A up : List Int} {x : Int} (h : HoldsPath A up) : HoldsPath (if up.length < XML_MAX_DEEP then A.set up.length x else A) (up ++ [x]) := by
  obtain ⟨h1, h2⟩ := h
  split
  · rename_i hl
    refine ⟨by simpa using h1, ?_⟩
    have e1 : A.take up.length = up := by rw [h2, List.take_of_length_le (by omega)]
    rw [List.take_of_length_le (l := up ++ [x]) (by simp; omega), List.length_append, List.length_singleton]
    have : (A.set up.length x).take (up.length + 1) = A.take up.length ++ [x] := by
      rw [List.take_add_one, List.take_set_of_le (by omega)]
      rw [List.getElem?_set_self (by omega)]
      rfl
    rw [this, e1]
  · rename_i hl
    refine ⟨h1, ?_⟩
    rw [List.take_append_of_le_length (by omega), List.take_of_length_le (by simp; omega)]
    rw [← h2, List.take_of_length_le (by omega)]

theorem holds_prefix {A up : List Int} {x : Int} (h : HoldsPath A (up ++ [x])) : HoldsPath A up := by
  obtain ⟨h1, h2⟩ := h
  refine ⟨h1, ?_⟩
  have := congrArg (List.take up.length) h2
  rw [List.take_take, List.take_take, List.length_append, List.length_singleton, Nat.min_eq_left (by omega)] at this
  rw [this, Nat.min_comm, ← List.take_take, List.take_left']
  rfl

mutual
theorem forAllPostA_tree {f : Img} : ∀ (t : XTree) (fuel : Nat) (up A : List Int), ItemTree f t → t.levels ≤ fuel → HoldsPath A up →
    ∃ l B, f.forAllPostA fuel t.item up.length A = .ok (l, B) ∧ seen l = t.post up.length ∧ (seenA l = (t.paths up).map fun q => (q.1, q.2.take XML_MAX_DEEP)) ∧ HoldsPath B (up ++ [t.item])
  | .mk x ks, fuel, up, A, h, hf, hA => by
    unfold ItemTree at h
    unfold XTree.levels at hf
    obtain ⟨fuel, rfl⟩ : ∃ k, fuel = k + 1 := ⟨fuel - 1, by omega⟩
    obtain ⟨l, B, h1, h2, h3, h4⟩ := forAllPostAFrom_tree ks x fuel up 0 _ h.2 (by omega) (holds_set (x := x) hA)
    refine ⟨l, B, ?_, by rw [h2]; unfold XTree.post; rfl, by rw [h3]; unfold XTree.paths; rfl, h4⟩
    unfold Img.forAllPostA XTree.item
    simp only
    rw [h.1, Out.ok_bind]
    exact h1
theorem forAllPostAFrom_tree {f : Img} : ∀ (ks : List XTree) (x : Int) (fuel : Nat) (up : List Int) (i : Nat) (A : List Int), ItemTrees f x i ks → itemsLevels ks ≤ fuel → HoldsPath A (up ++ [x]) →
    ∃ l B, f.forAllPostAFrom fuel x up.length ks.length i A = .ok (l, B) ∧ seen l = itemsPost ks up.length ∧ (seenA l = (itemsPaths ks (up ++ [x])).map fun q => (q.1, q.2.take XML_MAX_DEEP)) ∧ HoldsPath B (up ++ [x])
  | [], x, fuel, up, i, A, _, _, hA => ⟨[], A, by unfold Img.forAllPostAFrom; rfl, by unfold itemsPost; rfl, by unfold itemsPaths; rfl, hA⟩
  | k :: ks, x, fuel, up, i, A, h, hf, hA => by
    unfold ItemTrees at h
    unfold itemsLevels at hf
    obtain ⟨ca, r, a1, a2, a3⟩ := child_step h.1
    obtain ⟨l1, B1, b1, b2, b3, b4⟩ := forAllPostA_tree k fuel (up ++ [x]) A h.2.1 (by omega) hA
    have hB := holds_prefix b4
    obtain ⟨l2, B2, c1, c2, c3, c4⟩ := forAllPostAFrom_tree ks x fuel up (i + 1) B1 h.2.2 (by omega) hB
    have e : (up ++ [x]).length = up.length + 1 := by simp
    rw [e] at b1 b2
    refine ⟨l1 ++ { item := k.item, deep := up.length, above := B1 } :: l2, B2, ?_, ?_, ?_, c4⟩
    · unfold Img.forAllPostAFrom
      simp only [List.length_cons]
      rw [a1, Out.ok_bind, a2, Out.ok_bind, a3, b1, Out.ok_bind, c1]
      rfl
    · unfold itemsPost seen
      rw [List.map_append, List.map_cons]
      show seen l1 ++ (k.item, up.length) :: seen l2 = _
      rw [b2, c2]
    · unfold itemsPaths seenA
      rw [List.map_append, List.map_cons, List.map_append, List.map_cons]
      show seenA l1 ++ (k.item, B1.take (up.length + 1)) :: seenA l2 = _
      rw [b3, c3, ← e, hB.2]
end

mutual
theorem paths_depth : ∀ (t : XTree) (up : List Int), (t.paths up).map (fun q => (q.1, q.2.length - 1)) = t.post up.length
  | .mk x ks, up => by
    unfold XTree.paths XTree.post
    have := itemsPaths_depth ks (up ++ [x]) up.length (by simp)
    exact this
theorem itemsPaths_depth : ∀ (ks : List XTree) (up : List Int) (d : Nat), up.length = d + 1 → (itemsPaths ks up).map (fun q => (q.1, q.2.length - 1)) = itemsPost ks d
  | [], _, _, _ => by unfold itemsPaths itemsPost; rfl
  | k :: ks, up, d, h => by
    unfold itemsPaths itemsPost
    rw [List.map_append, List.map_cons, paths_depth k up, itemsPaths_depth ks up d h, h]
    rfl
end

theorem rdN_below : ∀ (l : List UInt8), rdN l < 256 ^ l.length
  | [] => by simp [rdN]
  | b :: l => by
    have := rdN_below l
    have hb := b.toNat_lt
    simp only [rdN, List.length_cons, Nat.pow_succ]
    omega

theorem rdN_app : ∀ (l k : List UInt8), rdN (l ++ k) = rdN l + 256 ^ l.length * rdN k
  | [], k => by simp [rdN]
  | b :: l, k => by
    have := rdN_app l k
    simp only [List.cons_append, rdN, this, List.length_cons, Nat.pow_succ]
    rw [Nat.mul_add, Nat.mul_comm (256 ^ l.length) 256, Nat.mul_assoc]
    omega

end BX
