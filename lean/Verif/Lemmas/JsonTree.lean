import Verif.Lemmas.Json
/-
The sizes of sub-trees in the token array, and the elements the plugin shows.
-/
namespace BX
open Spec

/-- the tokens of a whole document -/
theorem jsmn_doc {k : Nat} {v : JV} {w w' : BStr} (h : v.Ok) (hw : Blank w) (hw' : Blank w') (hk : v.count ≤ k) :
    jsmnParse (some k) (w ++ v.text ++ w') = .ok ⟨JVtoks v w.length (-1) 0, -1, v.count⟩ := by
  have a := run_blank (k := k) (s := JP.init) (r := v.text ++ w') (pos := 0) hw
  have b := JV.run (k := k) v [] (-1) 0 (0 + w.length) w' h (by omega) (by simp) (by simpa using hk) (by simpa using follows_blank (r := []) hw' (fun c hc => by simp at hc))
  have c := run_blank (k := k) (s := ⟨addSize [] (-1) 1 ++ JVtoks v (0 + w.length) (-1) 0, -1, 0 + v.count⟩) (r := []) (pos := 0 + w.length + v.text.length) hw'
  have hz : addSize [] (-1) 1 = [] := rfl
  simp only [hz, List.nil_append, Nat.zero_add, List.append_nil, List.length_nil] at a b c
  have e := ((a.trans b).trans c).loop
  unfold jsmnParse
  rw [List.append_assoc, e]
  show JP.finish _ _ = _
  unfold JP.finish
  rw [if_neg]
  rintro ⟨-, hc⟩
  rw [List.any_eq_true] at hc
  obtain ⟨t, ht, he⟩ := hc
  obtain ⟨i, hi⟩ := List.mem_iff_getElem?.1 ht
  have := (JVtoks_closed v w.length (-1) 0 (by omega) i t hi).2.1
  simp at he
  exact this he.2

/-! ### sizes of sub-trees -/

mutual
/-- the sizes of the sub-trees of a value, in the order of the tokens (a key counts only itself) -/
def JVtots : JV → List Nat
  | .str _ => [1]
  | .prim _ => [1]
  | .arr _ es => (1 + es.count) :: JEtots es
  | .obj _ ms => (1 + ms.count) :: JMtots ms
def JEtots : JEs → List Nat
  | .nil => []
  | .cons _ v _ rest => JVtots v ++ JEtots rest
def JMtots : JMs → List Nat
  | .nil => []
  | .cons _ _ _ _ v _ rest => 1 :: (JVtots v ++ JMtots rest)
end

mutual
theorem JVtots_length : ∀ v : JV, (JVtots v).length = v.count
  | .str _ => by simp [JVtots, JV.count]
  | .prim _ => by simp [JVtots, JV.count]
  | .arr _ es => by simp [JVtots, JV.count, JEtots_length es]; omega
  | .obj _ ms => by simp [JVtots, JV.count, JMtots_length ms]; omega
theorem JEtots_length : ∀ es : JEs, (JEtots es).length = es.count
  | .nil => by simp [JEtots, JEs.count]
  | .cons _ v _ rest => by simp [JEtots, JEs.count, JVtots_length v, JEtots_length rest]
theorem JMtots_length : ∀ ms : JMs, (JMtots ms).length = ms.count
  | .nil => by simp [JMtots, JMs.count]
  | .cons _ _ _ _ v _ rest => by simp [JMtots, JMs.count, JVtots_length v, JMtots_length rest]; omega
end

theorem JV.count_pos (v : JV) : 0 < v.count := by cases v <;> simp [JV.count] <;> omega

/-- a table with a list of numbers from index `base` on -/
def putTots (tot : Nat → Int) (base : Nat) (l : List Nat) : Nat → Int := fun j => if base ≤ j then (match l[j - base]? with | some n => (n : Int) | none => tot j) else tot j

theorem putTots_nil (tot : Nat → Int) (base : Nat) : putTots tot base [] = tot := by
  funext j; unfold putTots; simp

theorem putTots_append (tot : Nat → Int) (base : Nat) (a b : List Nat) : putTots (putTots tot base a) (base + a.length) b = putTots tot base (a ++ b) := by
  funext j
  unfold putTots
  by_cases h1 : base ≤ j
  · rw [if_pos h1, if_pos h1]
    by_cases h2 : base + a.length ≤ j
    · rw [if_pos h2, List.getElem?_append_right (by omega), show j - base - a.length = j - (base + a.length) by omega, show a[j - base]? = none by simp; omega]
    · rw [if_neg h2, List.getElem?_append_left (by omega)]
  · rw [if_neg h1, if_neg (by omega), if_neg h1]

theorem putTots_cons (tot : Nat → Int) (base n : Nat) (l : List Nat) : (fun j => if j = base then (n : Int) else putTots tot (base + 1) l j) = putTots tot base (n :: l) := by
  funext j
  unfold putTots
  by_cases h : j = base
  · subst h; simp
  · rw [if_neg h]
    by_cases h1 : base ≤ j
    · rw [if_pos (by omega), if_pos h1, show j - base = (j - (base + 1)) + 1 by omega, List.getElem?_cons_succ]
    · rw [if_neg (by omega), if_neg h1]

theorem putTots_one (tot : Nat → Int) (base n : Nat) : (fun j => if j = base then (n : Int) else tot j) = putTots tot base [n] := by
  rw [← putTots_cons, putTots_nil]

/-- the tokens from index `base` on -/
def Seg (T : List Tok) (base : Nat) (L : List Tok) : Prop := ∀ (i : Nat) (t : Tok), L[i]? = some t → T[base + i]? = some t

theorem Seg.left {T : List Tok} {base : Nat} {A B : List Tok} (h : Seg T base (A ++ B)) : Seg T base A := by
  intro i t hi
  have : i < A.length := (List.getElem?_eq_some_iff.1 hi).1
  exact h i t (by rw [List.getElem?_append_left this]; exact hi)

theorem Seg.right {T : List Tok} {base : Nat} {A B : List Tok} (h : Seg T base (A ++ B)) : Seg T (base + A.length) B := by
  intro i t hi
  have := h (A.length + i) t (by rw [List.getElem?_append_right (by omega), show A.length + i - A.length = i by omega]; exact hi)
  rw [← Nat.add_assoc] at this
  exact this

theorem Seg.head {T : List Tok} {base : Nat} {t : Tok} {L : List Tok} (h : Seg T base (t :: L)) : T[base]? = some t := h 0 t rfl

theorem Seg.tail {T : List Tok} {base : Nat} {t : Tok} {L : List Tok} (h : Seg T base (t :: L)) : Seg T (base + 1) L := Seg.right (A := [t]) h

mutual
theorem prepTotal_value {T : List Tok} : ∀ (v : JV) (off : Nat) (par : Int) (base fuel : Nat) (tot : Nat → Int), Seg T base (JVtoks v off par base) → 2 * v.count ≤ fuel →
    prepTotal T fuel base tot = .ok (v.count, putTots tot base (JVtots v))
  | .str s, off, par, base, fuel, tot, h, hf => by
    obtain ⟨m, rfl⟩ : ∃ m, fuel = m + 1 := ⟨fuel - 1, by simp only [JV.count] at hf; omega⟩
    rw [JVtoks] at h
    rw [prepTotal, h.head]
    simp only [Out.ok_bind, JV.count, JVtots]
    rw [← putTots_one]; rfl
  | .prim s, off, par, base, fuel, tot, h, hf => by
    obtain ⟨m, rfl⟩ : ∃ m, fuel = m + 1 := ⟨fuel - 1, by simp only [JV.count] at hf; omega⟩
    rw [JVtoks] at h
    rw [prepTotal, h.head]
    simp only [Out.ok_bind, JV.count, JVtots]
    rw [← putTots_one]; rfl
  | .arr pad es, off, par, base, fuel, tot, h, hf => by
    obtain ⟨m, rfl⟩ : ∃ m, fuel = m + 1 := ⟨fuel - 1, by simp only [JV.count] at hf; omega⟩
    rw [JVtoks] at h
    simp only [JV.count] at hf
    rw [prepTotal, h.head]
    simp only
    rw [prepMany_elems es (off + 1 + pad.length) base m base 1 tot h.tail (by omega)]
    simp only [Out.ok_bind, JV.count, JVtots]
    rw [← putTots_cons]; rfl
  | .obj pad ms, off, par, base, fuel, tot, h, hf => by
    obtain ⟨m, rfl⟩ : ∃ m, fuel = m + 1 := ⟨fuel - 1, by simp only [JV.count] at hf; omega⟩
    rw [JVtoks] at h
    simp only [JV.count] at hf
    rw [prepTotal, h.head]
    simp only
    rw [prepMany_members ms (off + 1 + pad.length) base m base 1 tot h.tail (by omega)]
    simp only [Out.ok_bind, JV.count, JVtots]
    rw [← putTots_cons]; rfl
theorem prepMany_elems {T : List Tok} : ∀ (es : JEs) (off par fuel idx total : Nat) (tot : Nat → Int), Seg T (idx + total) (JEtoks es off par (idx + total)) → 2 * es.count + 1 ≤ fuel →
    prepMany T fuel es.length idx total tot = .ok (total + es.count, putTots tot (idx + total) (JEtots es))
  | .nil, off, par, fuel, idx, total, tot, _, hf => by
    obtain ⟨m, rfl⟩ : ∃ m, fuel = m + 1 := ⟨fuel - 1, by omega⟩
    simp only [JEs.length, prepMany, JEs.count, JEtots, putTots_nil, Nat.add_zero]
  | .cons w v w' rest, off, par, fuel, idx, total, tot, h, hf => by
    obtain ⟨m, rfl⟩ : ∃ m, fuel = m + 1 := ⟨fuel - 1, by omega⟩
    have := JV.count_pos v
    simp only [JEs.count] at hf
    rw [JEtoks] at h
    have h2 := h.right
    rw [JVtoks_length] at h2
    simp only [JEs.length, prepMany]
    rw [prepTotal_value v _ _ _ m tot h.left (by omega), Out.ok_bind]
    simp only
    rw [prepMany_elems rest _ par m idx (total + v.count) _ (by rw [← Nat.add_assoc]; exact h2) (by omega)]
    simp only [JEs.count, JEtots]
    rw [← putTots_append, JVtots_length, Nat.add_assoc, Nat.add_assoc]
theorem prepMany_members {T : List Tok} : ∀ (ms : JMs) (off par fuel idx total : Nat) (tot : Nat → Int), Seg T (idx + total) (JMtoks ms off par (idx + total)) → 2 * ms.count + 1 ≤ fuel →
    prepMany T fuel (2 * ms.length) idx total tot = .ok (total + ms.count, putTots tot (idx + total) (JMtots ms))
  | .nil, off, par, fuel, idx, total, tot, _, hf => by
    obtain ⟨m, rfl⟩ : ∃ m, fuel = m + 1 := ⟨fuel - 1, by omega⟩
    simp only [JMs.length, prepMany, JMs.count, JMtots, putTots_nil, Nat.add_zero, Nat.mul_zero]
  | .cons w k w1 w2 v w3 rest, off, par, fuel, idx, total, tot, h, hf => by
    have := JV.count_pos v
    simp only [JMs.count] at hf
    obtain ⟨m, rfl⟩ : ∃ m, fuel = m + 3 := ⟨fuel - 3, by omega⟩
    rw [JMtoks] at h
    have h1 := h.head
    have h2 := h.tail.left
    have h3 := h.tail.right
    rw [JVtoks_length] at h3
    simp only [JMs.length, show 2 * (rest.length + 1) = 2 * rest.length + 1 + 1 by omega, prepMany]
    rw [prepTotal, h1]
    simp only [Out.ok_bind, Out.pure_eq]
    rw [show idx + (total + 1) = idx + total + 1 by omega, prepTotal_value v _ _ _ (m + 1) _ h2 (by omega), Out.ok_bind]
    simp only
    rw [prepMany_members rest _ par (m + 1) idx (total + 1 + v.count) _ (by rw [show idx + (total + 1 + v.count) = idx + total + 1 + v.count by omega]; exact h3) (by omega)]
    simp only [JMs.count, JMtots]
    rw [show (1 : Nat) :: (JVtots v ++ JMtots rest) = [1] ++ (JVtots v ++ JMtots rest) from rfl, ← putTots_append, ← putTots_append, JVtots_length, ← putTots_one,
      show idx + (total + 1 + v.count) = idx + total + [1].length + v.count by simp; omega]
    simp [Nat.add_assoc]
end

/-! ### the elements -/

/-- the text at a position of the source -/
def TextAt (js : List UInt8) (off : Nat) (s : BStr) : Prop := ∃ r, js.drop off = s ++ r

theorem TextAt.left {js : List UInt8} {off : Nat} {a b : BStr} (h : TextAt js off (a ++ b)) : TextAt js off a := by
  obtain ⟨r, h⟩ := h; exact ⟨b ++ r, by rw [h, List.append_assoc]⟩

theorem TextAt.right {js : List UInt8} {off : Nat} {a b : BStr} (h : TextAt js off (a ++ b)) : TextAt js (off + a.length) b := by
  obtain ⟨r, h⟩ := h
  refine ⟨r, ?_⟩
  rw [← List.drop_drop, h, List.append_assoc, List.drop_left]

theorem takeWhile_all {α : Type} {p : α → Bool} : ∀ {l : List α}, (∀ a ∈ l, p a = true) → l.takeWhile p = l
  | [], _ => rfl
  | a :: l, h => by rw [List.takeWhile_cons_of_pos (h a (by simp)), takeWhile_all (fun x hx => h x (by simp [hx]))]

theorem text_of {d : JDoc} {off : Nat} {s : BStr} {t : Tok} (h : TextAt d.src off s) (h1 : t.start = off) (h2 : t.end_ = (off : Int) + s.length) (hz : ∀ c ∈ s, c ≠ 0) : d.text t = s := by
  obtain ⟨r, h⟩ := h
  unfold JDoc.text
  rw [h1, h2, Int.toNat_natCast, h, show ((off : Int) + s.length - off).toNat = s.length by omega, List.take_left]
  exact takeWhile_all (fun c hc => by simpa using hz c hc)

theorem strText_noNul {s : BStr} (h : StrText s) : ∀ c ∈ s, c ≠ 0 := by
  induction h with
  | nil => simp
  | plain c s h0 _ _ _ ih => intro x hx; simp at hx; rcases hx with rfl | hx; exact h0; exact ih x hx
  | esc c s hc _ ih =>
    intro x hx; simp at hx; rcases hx with rfl | rfl | hx
    · decide
    · simp at hc; rcases hc with rfl | rfl | rfl | rfl | rfl | rfl | rfl | rfl <;> decide
    · exact ih x hx
  | uni a b c d s ha hb hc hd _ ih =>
    intro x hx; simp at hx; rcases hx with rfl | rfl | rfl | rfl | rfl | rfl | hx
    · decide
    · decide
    · exact hexDigit_ne0 ha
    · exact hexDigit_ne0 hb
    · exact hexDigit_ne0 hc
    · exact hexDigit_ne0 hd
    · exact ih x hx

theorem primText_noNul {s : BStr} (h : PrimText s) : ∀ c ∈ s, c ≠ 0 := by
  intro c hc he
  subst he
  exact absurd (h.2.1 0 hc).1 (by decide)

/-- the handles of the elements of an array whose first token has index `base` -/
def JEhandles : JEs → Nat → List Nat
  | .nil, _ => []
  | .cons _ v _ rest, base => base :: JEhandles rest (base + v.count)

/-- the handles of the members of an object -/
def JMhandles : JMs → Nat → List Nat
  | .nil, _ => []
  | .cons _ _ _ _ v _ rest, base => base :: JMhandles rest (base + 1 + v.count)

theorem JEhandles_sorted : ∀ (es : JEs) (base : Nat), (JEhandles es base).Pairwise (· < ·) ∧ ∀ h ∈ JEhandles es base, base ≤ h
  | .nil, base => by simp [JEhandles]
  | .cons w v w' rest, base => by
    obtain ⟨h1, h2⟩ := JEhandles_sorted rest (base + v.count)
    have := JV.count_pos v
    rw [JEhandles]
    refine ⟨List.pairwise_cons.2 ⟨fun x hx => ?_, h1⟩, fun x hx => ?_⟩
    · have := h2 x hx; omega
    · rcases List.mem_cons.1 hx with rfl | hx
      · omega
      · have := h2 x hx; omega

theorem JMhandles_sorted : ∀ (ms : JMs) (base : Nat), (JMhandles ms base).Pairwise (· < ·) ∧ ∀ h ∈ JMhandles ms base, base ≤ h
  | .nil, base => by simp [JMhandles]
  | .cons w k w1 w2 v w3 rest, base => by
    obtain ⟨h1, h2⟩ := JMhandles_sorted rest (base + 1 + v.count)
    rw [JMhandles]
    refine ⟨List.pairwise_cons.2 ⟨fun x hx => ?_, h1⟩, fun x hx => ?_⟩
    · have := h2 x hx; omega
    · rcases List.mem_cons.1 hx with rfl | hx
      · omega
      · have := h2 x hx; omega

/-- the sizes from index `base` on -/
def Tots (tot : Nat → Int) (base : Nat) (l : List Nat) : Prop := ∀ (i n : Nat), l[i]? = some n → tot (base + i) = n

theorem Tots.left {tot : Nat → Int} {base : Nat} {A B : List Nat} (h : Tots tot base (A ++ B)) : Tots tot base A := by
  intro i n hi
  have : i < A.length := (List.getElem?_eq_some_iff.1 hi).1
  exact h i n (by rw [List.getElem?_append_left this]; exact hi)

theorem Tots.right {tot : Nat → Int} {base : Nat} {A B : List Nat} (h : Tots tot base (A ++ B)) : Tots tot (base + A.length) B := by
  intro i n hi
  have := h (A.length + i) n (by rw [List.getElem?_append_right (by omega), show A.length + i - A.length = i by omega]; exact hi)
  rw [← Nat.add_assoc] at this
  exact this

theorem tots_putTots (tot : Nat → Int) (base : Nat) (l : List Nat) : Tots (putTots tot base l) base l := by
  intro i n h
  unfold putTots
  rw [if_pos (by omega), show base + i - base = i by omega, h]

theorem JVtots_head (v : JV) : ∃ l, JVtots v = v.count :: l := by
  cases v <;> simp [JVtots, JV.count]

theorem tots_value {tot : Nat → Int} {base : Nat} {v : JV} (h : Tots tot base (JVtots v)) : tot base = v.count := by
  obtain ⟨l, hl⟩ := JVtots_head v
  exact h 0 _ (by rw [hl]; rfl)

theorem JVtoks_head (v : JV) (off : Nat) (par : Int) (base : Nat) : ∃ t l, JVtoks v off par base = t :: l ∧ t.parent = par := by
  cases v <;> simp [JVtoks]

theorem childLoop_elems {d : JDoc} : ∀ (es : JEs) (off par base : Nat), Seg d.toks base (JEtoks es off par base) → Tots d.tot base (JEtots es) →
    d.childLoop false es.length base = .ok (JEhandles es base)
  | .nil, _, _, _, _, _ => by simp [JEs.length, JDoc.childLoop, JEhandles]
  | .cons w v w' rest, off, par, base, h, ht => by
    rw [JEtoks] at h
    rw [JEtots] at ht
    obtain ⟨t, l, htl, -⟩ := JVtoks_head v (off + w.length) par base
    have h1 : d.toks[base]? = some t := by have := h.left; rw [htl] at this; exact this.head
    have h2 := h.right
    have t2 := ht.right
    rw [JVtoks_length] at h2
    rw [JVtots_length] at t2
    have ih := childLoop_elems rest _ par (base + v.count) h2 t2
    simp only [JEs.length, JDoc.childLoop, JDoc.tok, JDoc.skip, JEhandles]
    rw [if_neg (by omega), Int.toNat_natCast, h1]
    simp only [Out.ok_bind, tots_value ht.left]
    rw [if_neg (by decide), Out.ok_bind, show (base : Int) + (v.count : Int) = ((base + v.count : Nat) : Int) by omega, ih]
    rfl

theorem childLoop_members {d : JDoc} : ∀ (ms : JMs) (off par base : Nat), Seg d.toks base (JMtoks ms off par base) → Tots d.tot base (JMtots ms) →
    d.childLoop true ms.length base = .ok (JMhandles ms base)
  | .nil, _, _, _, _, _ => by simp [JMs.length, JDoc.childLoop, JMhandles]
  | .cons w k w1 w2 v w3 rest, off, par, base, h, ht => by
    rw [JMtoks] at h
    rw [JMtots] at ht
    obtain ⟨t, l, htl, -⟩ := JVtoks_head v (off + w.length + 1 + k.length + 1 + w1.length + 1 + w2.length) base (base + 1)
    have h1 : d.toks[base + 1]? = some t := by have := h.tail.left; rw [htl] at this; exact this.head
    have h2 := h.tail.right
    have t1 : d.tot base = 1 := ht 0 1 rfl
    have t2 := Tots.right (A := [1]) ht
    have t3 := t2.right
    rw [JVtoks_length] at h2
    rw [JVtots_length] at t3
    simp only [List.length_cons, List.length_nil, Nat.zero_add] at t2 t3
    have ih := childLoop_members rest _ par (base + 1 + v.count) h2 t3
    simp only [JMs.length, JDoc.childLoop, JDoc.tok, JDoc.skip, JMhandles]
    rw [if_neg (by omega), Int.toNat_natCast, h.head]
    simp only [Out.ok_bind, t1]
    rw [if_pos trivial, if_neg (by omega), show ((base : Int) + 1).toNat = base + 1 by omega, h1]
    simp only [Out.ok_bind, Out.pure_eq, tots_value t2.left]
    rw [show (base : Int) + 1 + (v.count : Int) = ((base + 1 + v.count : Nat) : Int) by omega, ih]
    rfl

theorem tok_eq {d : JDoc} {x : Nat} {t : Tok} (h : d.toks[x]? = some t) : d.tok x = .ok t := by
  unfold JDoc.tok
  rw [if_neg (by omega), Int.toNat_natCast, h]


theorem text_value {d : JDoc} {off : Nat} {s : BStr} {t : Tok} (h : TextAt d.src off (34 :: s ++ [34])) (h1 : t.start = (off : Int) + 1) (h2 : t.end_ = (off : Int) + 1 + s.length) (hz : StrText s) : d.text t = s := by
  have h3 : TextAt d.src (off + 1) (s ++ [34]) := TextAt.right (a := [34]) h
  exact text_of h3.left (by rw [h1]; omega) (by rw [h2]; omega) (strText_noNul hz)

theorem singular_name {s : BStr} (h : s ≠ []) : itemName s = .ok (singular s) := by
  unfold itemName singular
  rw [if_neg h]
  split
  · rfl
  · split <;> rfl

/-- the name of an element of an array inside an array, or of an array under a key -/
theorem name_in_array {d : JDoc} {x b : Nat} {t a p : Tok} (hx : d.toks[x]? = some t) (ht : t.parent = b) (hb : d.toks[b]? = some a) (ha : a.type = .array) (hp0 : 0 ≤ a.parent)
    (hp : d.toks[a.parent.toNat]? = some p) :
    d.getNodeName x = (if p.type = .string then do let s ← itemName (d.text p); return some s else return some (b8 "__ARRAY_ITEM_NAME__")) := by
  have hbl : b < d.toks.length := (List.getElem?_eq_some_iff.1 hb).1
  have hpl : a.parent.toNat < d.toks.length := (List.getElem?_eq_some_iff.1 hp).1
  unfold JDoc.getNodeName
  rw [tok_eq hx, Out.ok_bind, if_neg (by rw [ht]; omega), ht, tok_eq hb, Out.ok_bind, if_pos ha, if_neg (by omega), show a.parent = (a.parent.toNat : Int) by omega, tok_eq hp, Out.ok_bind]

theorem valueTok_root {d : JDoc} {x : Nat} {t : Tok} (h : d.toks[x]? = some t) (hp : t.parent < 0) : d.valueTok x = .ok x := by
  unfold JDoc.valueTok
  rw [h]
  simp only
  rw [if_neg (by omega)]

theorem valueTok_in {d : JDoc} {x b : Nat} {t p : Tok} (h : d.toks[x]? = some t) (hp : t.parent = b) (hb : d.toks[b]? = some p) :
    d.valueTok x = if p.type = .object then .ok (x + d.tot x) else .ok x := by
  have hbl : b < d.toks.length := (List.getElem?_eq_some_iff.1 hb).1
  unfold JDoc.valueTok
  rw [h]
  simp only
  rw [if_pos (by rw [hp]; omega), hp, Int.toNat_natCast, hb]

mutual
/-- what is seen through a handle whose value is the token `base` -/
theorem JV.shown {d : JDoc} {named : Prop} : ∀ (v : JV) (off : Nat) (par : Int) (base : Nat) (name inner : Option BStr) (h : Nat), v.Ok → (named → v.KeysNamed) → Seg d.toks base (JVtoks v off par base) →
    Tots d.tot base (JVtots v) → TextAt d.src off v.text → d.valueTok h = .ok base → (named → d.getNodeName h = .ok name) →
    (∀ pad es, v = .arr pad es → ∀ (x : Nat) (t : Tok), d.toks[x]? = some t → t.parent = base → named → d.getNodeName x = .ok inner) → v.Shown d named name inner h
  | .str s, off, par, base, name, inner, h, ho, _, hs, _, hx, hv, hn, _ => by
    rw [JVtoks] at hs
    rw [JV.text] at hx
    rw [JV.Shown]
    refine ⟨hn, ?_, ?_⟩
    · unfold JDoc.getNodeValue
      rw [hv, Out.ok_bind, tok_eq hs.head, Out.ok_bind, if_neg (by simp), text_value hx rfl rfl ho]
      rfl
    · unfold JDoc.children
      rw [hv, Out.ok_bind, tok_eq hs.head, Out.ok_bind]
      rfl
  | .prim s, off, par, base, name, inner, h, ho, _, hs, _, hx, hv, hn, _ => by
    rw [JVtoks] at hs
    rw [JV.text] at hx
    rw [JV.Shown]
    refine ⟨hn, ?_, ?_⟩
    · unfold JDoc.getNodeValue
      rw [hv, Out.ok_bind, tok_eq hs.head, Out.ok_bind, if_neg (by simp), text_of hx rfl rfl (primText_noNul ho)]
      rfl
    · unfold JDoc.children
      rw [hv, Out.ok_bind, tok_eq hs.head, Out.ok_bind]
      rfl
  | .arr pad es, off, par, base, name, inner, h, ho, hk, hs, ht, hx, hv, hn, hi => by
    rw [JVtoks] at hs
    rw [JVtots] at ht
    rw [JV.Ok] at ho
    rw [JV.KeysNamed] at hk
    rw [JV.text] at hx
    have t2 : Tots d.tot (base + 1) (JEtots es) := Tots.right (A := [_]) ht
    have hx2 : TextAt d.src (off + 1 + pad.length) es.text := by
      have h1 : TextAt d.src (off + (91 :: pad).length) es.text := (TextAt.left (b := [93]) hx).right
      rw [show off + 1 + pad.length = off + (91 :: pad).length by simp; omega]
      exact h1
    rw [JV.Shown]
    refine ⟨hn, ?_, JEhandles es (base + 1), ?_, (JEhandles_sorted es _).1, JEs.shown es _ base _ inner _ ho.2 hk hs.tail t2 hx2 hs.head rfl (hi pad es rfl)⟩
    · unfold JDoc.getNodeValue
      rw [hv, Out.ok_bind, tok_eq hs.head, Out.ok_bind, if_pos (by simp)]
      rfl
    · unfold JDoc.children
      rw [hv, Out.ok_bind, tok_eq hs.head, Out.ok_bind]
      exact childLoop_elems es _ base (base + 1) hs.tail t2
  | .obj pad ms, off, par, base, name, inner, h, ho, hk, hs, ht, hx, hv, hn, _ => by
    rw [JVtoks] at hs
    rw [JVtots] at ht
    rw [JV.Ok] at ho
    rw [JV.KeysNamed] at hk
    rw [JV.text] at hx
    have t2 : Tots d.tot (base + 1) (JMtots ms) := Tots.right (A := [_]) ht
    have hx2 : TextAt d.src (off + 1 + pad.length) ms.text := by
      have h1 : TextAt d.src (off + (123 :: pad).length) ms.text := (TextAt.left (b := [125]) hx).right
      rw [show off + 1 + pad.length = off + (123 :: pad).length by simp; omega]
      exact h1
    rw [JV.Shown]
    refine ⟨hn, ?_, JMhandles ms (base + 1), ?_, (JMhandles_sorted ms _).1, JMs.shown ms _ base _ _ ho.2 hk hs.tail t2 hx2 hs.head rfl⟩
    · unfold JDoc.getNodeValue
      rw [hv, Out.ok_bind, tok_eq hs.head, Out.ok_bind, if_pos (by simp)]
      rfl
    · unfold JDoc.children
      rw [hv, Out.ok_bind, tok_eq hs.head, Out.ok_bind]
      exact childLoop_members ms _ base (base + 1) hs.tail t2
theorem JEs.shown {d : JDoc} {named : Prop} : ∀ (es : JEs) (off par base : Nat) (inner : Option BStr) (a : Tok), es.Ok → (named → es.KeysNamed) → Seg d.toks base (JEtoks es off par base) → Tots d.tot base (JEtots es) →
    TextAt d.src off es.text → d.toks[par]? = some a → a.type = .array → (∀ (x : Nat) (t : Tok), d.toks[x]? = some t → t.parent = par → named → d.getNodeName x = .ok inner) →
    es.Shown d named inner (JEhandles es base)
  | .nil, _, _, _, _, _, _, _, _, _, _, _, _, _ => by rw [JEs.Shown, JEhandles]
  | .cons w v w' rest, off, par, base, inner, a, ho, hk, hs, ht, hx, hp, ha, hi => by
    rw [JEtoks] at hs
    rw [JEtots] at ht
    rw [JEs.Ok] at ho
    rw [JEs.KeysNamed] at hk
    rw [JEs.text] at hx
    obtain ⟨-, hov, -, hor⟩ := ho
    obtain ⟨t, l, htl, htp⟩ := JVtoks_head v (off + w.length) par base
    have h1 : d.toks[base]? = some t := by have := hs.left; rw [htl] at this; exact this.head
    have hs2 := hs.right
    have t2 := ht.right
    rw [JVtoks_length] at hs2
    rw [JVtots_length] at t2
    have x4 := TextAt.right hx
    have xv := (hx.left.left.left).right
    simp only [List.length_append, ← Nat.add_assoc] at x4
    rw [JEs.Shown, JEhandles]
    refine ⟨base, _, rfl, JV.shown v (off + w.length) par base _ _ base hov (fun hm => (hk hm).1) hs.left ht.left xv ?_ (hi base t h1 htp) ?_, JEs.shown rest _ par _ inner a hor (fun hm => (hk hm).2) hs2 t2 x4 hp ha hi⟩
    · rw [valueTok_in h1 htp hp, if_neg (by rw [ha]; decide)]
    · rintro pad es rfl x u hxu hup hm
      rw [JVtoks] at htl
      cases htl
      rw [name_in_array hxu hup h1 rfl (by simp) (by simpa using hp), if_neg (by rw [ha]; decide)]
      rfl
theorem JMs.shown {d : JDoc} {named : Prop} : ∀ (ms : JMs) (off par base : Nat) (a : Tok), ms.Ok → (named → ms.KeysNamed) → Seg d.toks base (JMtoks ms off par base) → Tots d.tot base (JMtots ms) →
    TextAt d.src off ms.text → d.toks[par]? = some a → a.type = .object → ms.Shown d named (JMhandles ms base)
  | .nil, _, _, _, _, _, _, _, _, _, _, _ => by rw [JMs.Shown, JMhandles]
  | .cons w k w1 w2 v w3 rest, off, par, base, a, ho, hk, hs, ht, hx, hp, ha => by
    rw [JMtoks] at hs
    rw [JMtots] at ht
    rw [JMs.Ok] at ho
    rw [JMs.KeysNamed] at hk
    obtain ⟨-, hok, -, -, hov, -, hor⟩ := ho
    have hs2 := hs.tail.right
    have t1 : d.tot base = 1 := ht 0 1 rfl
    have t2 : Tots d.tot (base + 1) (JVtots v ++ JMtots rest) := Tots.right (A := [1]) ht
    have t3 := t2.right
    rw [JVtoks_length] at hs2
    rw [JVtots_length] at t3
    have e : JMs.text (.cons w k w1 w2 v w3 rest) = w ++ ((34 :: k ++ [34]) ++ (w1 ++ ([58] ++ (w2 ++ (v.text ++ (w3 ++ (comma rest.isNil ++ rest.text))))))) := by
      simp [JMs.text]
    rw [e] at hx
    have x1 := TextAt.right hx
    have x2 := TextAt.right x1
    have x3 := TextAt.right x2
    have x4 := TextAt.right x3
    have x5 := TextAt.right x4
    have x6 := TextAt.right x5
    have x7 := TextAt.right x6
    have x8 := TextAt.right x7
    have htext := text_value (d := d) (t := ⟨.string, ((off + w.length : Nat) : Int) + 1, ((off + w.length : Nat) : Int) + 1 + k.length, 1, par⟩) x1.left rfl rfl hok
    have hpl : par < d.toks.length := (List.getElem?_eq_some_iff.1 hp).1
    rw [JMs.Shown, JMhandles]
    refine ⟨base, _, rfl, JV.shown v _ base (base + 1) _ _ base hov (fun hm => (hk hm).2.1) hs.tail.left t2.left ?_ ?_ ?_ ?_, JMs.shown rest _ par _ a hor (fun hm => (hk hm).2.2) hs2 t3 ?_ hp ha⟩
    · have := x5.left
      simp only [List.length_append, List.length_cons, List.length_nil] at this
      rw [show off + w.length + 1 + k.length + 1 + w1.length + 1 + w2.length = off + w.length + (k.length + 1 + (0 + 1)) + w1.length + (0 + 1) + w2.length by omega]
      exact this
    · rw [valueTok_in hs.head rfl hp, if_pos ha, t1]
      rfl
    · intro _
      unfold JDoc.getNodeName
      rw [tok_eq hs.head, Out.ok_bind]
      simp only
      rw [if_neg (by omega), tok_eq hp, Out.ok_bind, if_neg (by rw [ha]; decide), if_neg (by rw [ha]; decide), if_neg (by decide), htext]
      rfl
    · rintro pad es rfl x u hxu hup hm
      have hb := hs.tail
      rw [JVtoks] at hb
      rw [name_in_array hxu hup (Seg.head (L := JEtoks es _ _ _ ++ _) hb) rfl (by simp) (show d.toks[((base : Nat) : Int).toNat]? = _ by rw [Int.toNat_natCast]; exact hs.head), if_pos rfl, htext,
        singular_name (fun hk0 => (hk hm).1 hk0 pad es rfl)]
      rfl
    · simp only [List.length_append, List.length_cons, List.length_nil] at x8
      rw [show off + w.length + 1 + k.length + 1 + w1.length + 1 + w2.length + v.text.length + w3.length + (comma rest.isNil).length =
        off + w.length + (k.length + 1 + (0 + 1)) + w1.length + (0 + 1) + w2.length + v.text.length + w3.length + (comma rest.isNil).length by omega]
      exact x8
end

/-! ### spans -/

/-- a token and its parent -/
structure GoodParent (T : List Tok) (t : Tok) : Prop where
  ex : ∃ p, 0 ≤ t.parent ∧ T[t.parent.toNat]? = some p ∧ (p.type = .array ∨ p.type = .object → p.start < t.start ∧ t.end_ < p.end_) ∧ (p.type = .string → p.end_ < t.start) ∧ p.type ≠ .primitive

theorem getElem?_append_cases {α : Type} {A B : List α} {i : Nat} {t : α} (h : (A ++ B)[i]? = some t) : A[i]? = some t ∨ (A.length ≤ i ∧ B[i - A.length]? = some t) := by
  by_cases hi : i < A.length
  · rw [List.getElem?_append_left hi] at h; exact Or.inl h
  · rw [List.getElem?_append_right (by omega)] at h; exact Or.inr ⟨by omega, h⟩

mutual
theorem JV.nested {T : List Tok} : ∀ (v : JV) (off : Nat) (par : Int) (base : Nat), Seg T base (JVtoks v off par base) → ∀ t ∈ JVtoks v off par base,
    (off : Int) ≤ t.start ∧ t.start ≤ t.end_ ∧ t.end_ ≤ (off + v.text.length : Nat) ∧ (t.parent = par ∨ GoodParent T t)
  | .str s, off, par, base, hs, t, ht => by
    rw [JVtoks] at ht
    simp only [List.mem_singleton] at ht
    subst ht
    simp only [JV.text, List.length_append, List.length_cons, List.length_nil]
    exact ⟨by omega, by omega, by omega, Or.inl trivial⟩
  | .prim s, off, par, base, hs, t, ht => by
    rw [JVtoks] at ht
    simp only [List.mem_singleton] at ht
    subst ht
    simp only [JV.text]
    exact ⟨by omega, by omega, by omega, Or.inl trivial⟩
  | .arr pad es, off, par, base, hs, t, ht => by
    rw [JVtoks] at ht hs
    simp only [JV.text, List.length_append, List.length_cons, List.length_nil]
    rcases List.mem_cons.1 ht with rfl | ht
    · simp only
      exact ⟨by omega, by omega, by omega, Or.inl trivial⟩
    · obtain ⟨h1, h2, h3, h4⟩ := JEs.nested es (off + 1 + pad.length) base (base + 1) hs.head (Or.inl rfl) (by simp only; omega) (by simp only; omega) hs.tail t ht
      exact ⟨by omega, by omega, by omega, Or.inr h4⟩
  | .obj pad ms, off, par, base, hs, t, ht => by
    rw [JVtoks] at ht hs
    simp only [JV.text, List.length_append, List.length_cons, List.length_nil]
    rcases List.mem_cons.1 ht with rfl | ht
    · simp only
      exact ⟨by omega, by omega, by omega, Or.inl trivial⟩
    · obtain ⟨h1, h2, h3, h4⟩ := JMs.nested ms (off + 1 + pad.length) base (base + 1) hs.head (Or.inr rfl) (by simp only; omega) (by simp only; omega) hs.tail t ht
      exact ⟨by omega, by omega, by omega, Or.inr h4⟩
theorem JEs.nested {T : List Tok} : ∀ (es : JEs) (off par base : Nat) {c : Tok}, T[par]? = some c → c.type = .array ∨ c.type = .object → c.start < off → (off + es.text.length : Nat) < c.end_ →
    Seg T base (JEtoks es off par base) → ∀ t ∈ JEtoks es off par base,
    (off : Int) ≤ t.start ∧ t.start ≤ t.end_ ∧ t.end_ ≤ (off + es.text.length : Nat) ∧ GoodParent T t
  | .nil, _, _, _, _, _, _, _, _, _, t, ht => by rw [JEtoks] at ht; simp at ht
  | .cons w v w' rest, off, par, base, c, hc, hct, h1, h2, hs, t, ht => by
    rw [JEtoks] at ht hs
    simp only [JEs.text, List.length_append] at h2 ⊢
    rcases List.mem_append.1 ht with ht | ht
    · obtain ⟨a1, a2, a3, a4⟩ := JV.nested v (off + w.length) par base hs.left t ht
      refine ⟨by omega, by omega, by omega, ?_⟩
      rcases a4 with a4 | a4
      · refine ⟨c, by omega, by rw [a4]; exact hc, fun _ => ⟨by omega, by omega⟩, fun e => ?_, ?_⟩
        · rcases hct with hct | hct <;> rw [hct] at e <;> cases e
        · rcases hct with hct | hct <;> rw [hct] <;> decide
      · exact a4
    · have hs2 := hs.right
      rw [JVtoks_length] at hs2
      obtain ⟨a1, a2, a3, a4⟩ := JEs.nested rest _ par _ hc hct (by omega) (by omega) hs2 t ht
      exact ⟨by omega, by omega, by omega, a4⟩
theorem JMs.nested {T : List Tok} : ∀ (ms : JMs) (off par base : Nat) {c : Tok}, T[par]? = some c → c.type = .array ∨ c.type = .object → c.start < off → (off + ms.text.length : Nat) < c.end_ →
    Seg T base (JMtoks ms off par base) → ∀ t ∈ JMtoks ms off par base,
    (off : Int) ≤ t.start ∧ t.start ≤ t.end_ ∧ t.end_ ≤ (off + ms.text.length : Nat) ∧ GoodParent T t
  | .nil, _, _, _, _, _, _, _, _, _, t, ht => by rw [JMtoks] at ht; simp at ht
  | .cons w k w1 w2 v w3 rest, off, par, base, c, hc, hct, h1, h2, hs, t, ht => by
    rw [JMtoks] at ht hs
    simp only [JMs.text, List.length_append, List.length_cons, List.length_nil] at h2 ⊢
    have hnp : c.type ≠ .string ∧ c.type ≠ .primitive := by rcases hct with hct | hct <;> rw [hct] <;> exact ⟨by decide, by decide⟩
    rcases List.mem_cons.1 ht with rfl | ht
    · simp only
      exact ⟨by omega, by omega, by omega, c, by simp, by simpa using hc, fun _ => ⟨by simp only; omega, by simp only; omega⟩, fun e => absurd e hnp.1, hnp.2⟩
    rcases List.mem_append.1 ht with ht | ht
    · obtain ⟨a1, a2, a3, a4⟩ := JV.nested v _ base (base + 1) hs.tail.left t ht
      refine ⟨by omega, by omega, by omega, ?_⟩
      rcases a4 with a4 | a4
      · refine ⟨_, by omega, by rw [a4]; exact hs.head, fun e => by simp at e, fun _ => ?_, by simp⟩
        simp only; omega
      · exact a4
    · have hs2 := hs.tail.right
      rw [JVtoks_length] at hs2
      obtain ⟨a1, a2, a3, a4⟩ := JMs.nested rest _ par _ hc hct (by omega) (by omega) hs2 t ht
      exact ⟨by omega, by omega, by omega, a4⟩
end

/-- the number of tokens within the span of a token -/
def spanned (T : List Tok) (t : Tok) : Nat := (T.filter fun u => decide (t.start ≤ u.start ∧ u.end_ ≤ t.end_)).length

theorem spanned_append (A B : List Tok) (t : Tok) : spanned (A ++ B) t = spanned A t + spanned B t := by simp [spanned]

theorem spanned_before {A : List Tok} {t : Tok} (h : ∀ u ∈ A, u.start < t.start) : spanned A t = 0 := by
  unfold spanned
  rw [List.filter_eq_nil_iff.2 (fun u hu => by have := h u hu; simp; omega)]
  rfl

theorem spanned_after {A : List Tok} {t : Tok} (h : ∀ u ∈ A, t.end_ < u.start ∧ u.start ≤ u.end_) : spanned A t = 0 := by
  unfold spanned
  rw [List.filter_eq_nil_iff.2 (fun u hu => by have := h u hu; simp; omega)]
  rfl

theorem spanned_all {A : List Tok} {t : Tok} (h : ∀ u ∈ A, t.start ≤ u.start ∧ u.end_ ≤ t.end_) : spanned A t = A.length := by
  unfold spanned
  rw [List.filter_eq_self.2 (fun u hu => by simpa using h u hu)]

theorem Seg.self (A L B : List Tok) : Seg (A ++ (L ++ B)) A.length L := by
  intro i t h
  have : i < L.length := (List.getElem?_eq_some_iff.1 h).1
  rw [List.getElem?_append_right (by omega), show A.length + i - A.length = i by omega, List.getElem?_append_left this]
  exact h

/-- spans of tokens of a value, wherever they are -/
theorem JV.within (v : JV) (off : Nat) (par : Int) (base : Nat) : ∀ t ∈ JVtoks v off par base, (off : Int) ≤ t.start ∧ t.start ≤ t.end_ ∧ t.end_ ≤ (off + v.text.length : Nat) := by
  intro t ht
  have := JV.nested (T := List.replicate base ⟨.array, 0, 0, 0, 0⟩ ++ (JVtoks v off par base ++ [])) v off par base (by
    have := Seg.self (List.replicate base ⟨.array, 0, 0, 0, 0⟩) (JVtoks v off par base) []
    rwa [List.length_replicate] at this) t ht
  exact ⟨this.1, this.2.1, this.2.2.1⟩

theorem JEs.within : ∀ (es : JEs) (off par base : Nat), ∀ t ∈ JEtoks es off par base, (off : Int) ≤ t.start ∧ t.start ≤ t.end_ ∧ t.end_ ≤ (off + es.text.length : Nat)
  | .nil, _, _, _, t, ht => by rw [JEtoks] at ht; simp at ht
  | .cons w v w' rest, off, par, base, t, ht => by
    rw [JEtoks] at ht
    simp only [JEs.text, List.length_append]
    rcases List.mem_append.1 ht with ht | ht
    · have := JV.within v _ _ _ t ht; omega
    · have := JEs.within rest _ _ _ t ht; omega

theorem JMs.within : ∀ (ms : JMs) (off par base : Nat), ∀ t ∈ JMtoks ms off par base, (off : Int) ≤ t.start ∧ t.start ≤ t.end_ ∧ t.end_ ≤ (off + ms.text.length : Nat)
  | .nil, _, _, _, t, ht => by rw [JMtoks] at ht; simp at ht
  | .cons w k w1 w2 v w3 rest, off, par, base, t, ht => by
    rw [JMtoks] at ht
    simp only [JMs.text, List.length_append, List.length_cons, List.length_nil]
    rcases List.mem_cons.1 ht with rfl | ht
    · simp only; omega
    rcases List.mem_append.1 ht with ht | ht
    · have := JV.within v _ _ _ t ht; omega
    · have := JMs.within rest _ _ _ t ht; omega

mutual
/-- every sub-tree has as many tokens as its size says -/
theorem JV.sizes : ∀ (v : JV) (off : Nat) (par : Int) (base : Nat) (A B : List Tok), (∀ u ∈ A, u.start < off) → (∀ u ∈ B, ((off + v.text.length : Nat) : Int) < u.start ∧ u.start ≤ u.end_) →
    ∀ (i : Nat) (t : Tok) (n : Nat), (JVtoks v off par base)[i]? = some t → (JVtots v)[i]? = some n → spanned (A ++ (JVtoks v off par base ++ B)) t = n
  | .str s, off, par, base, A, B, hA, hB, i, t, n, ht, hn => by
    rw [JVtoks] at ht ⊢
    rw [JVtots] at hn
    cases i with
    | succ i => simp at ht
    | zero =>
      cases ht; cases hn
      rw [spanned_append, spanned_append, spanned_before (fun u hu => by have := hA u hu; simp only; omega),
        spanned_after (A := B) (fun u hu => by have := hB u hu; simp only [JV.text, List.length_append, List.length_cons, List.length_nil] at this ⊢; omega), spanned_all (fun u hu => by simp at hu; subst hu; simp)]
      rfl
  | .prim s, off, par, base, A, B, hA, hB, i, t, n, ht, hn => by
    rw [JVtoks] at ht ⊢
    rw [JVtots] at hn
    cases i with
    | succ i => simp at ht
    | zero =>
      cases ht; cases hn
      rw [spanned_append, spanned_append, spanned_before (fun u hu => by have := hA u hu; simp only; omega),
        spanned_after (A := B) (fun u hu => by have := hB u hu; simp only [JV.text] at this ⊢; omega), spanned_all (fun u hu => by simp at hu; subst hu; simp)]
      rfl
  | .arr pad es, off, par, base, A, B, hA, hB, i, t, n, ht, hn => by
    cases i with
    | zero =>
      have hw := JV.within (.arr pad es) off par base
      have hl := JVtoks_length (.arr pad es) off par base
      rw [JVtoks] at ht hw hl ⊢
      rw [JVtots] at hn
      simp only [List.getElem?_cons_zero, Option.some.injEq] at ht hn
      have hw' := hw
      simp only [JV.text, List.length_append, List.length_cons, List.length_nil] at hw hB
      rw [spanned_append, spanned_append, spanned_before (fun u hu => by have := hA u hu; rw [← ht]; simp only; omega),
        spanned_after (A := B) (fun u hu => by have := hB u hu; rw [← ht]; simp only; omega), spanned_all (fun u hu => by have := hw u hu; rw [← ht]; simp only; omega), hl, ← hn]
      simp [JV.count]
    | succ i =>
      rw [JVtoks] at ht ⊢
      rw [JVtots] at hn
      rw [List.getElem?_cons_succ] at ht hn
      simp only [JV.text, List.length_append, List.length_cons, List.length_nil] at hB
      have := JEs.sizes es (off + 1 + pad.length) base (base + 1) (A ++ [⟨.array, off, (off + 1 + pad.length + es.text.length : Nat) + 1, es.length, par⟩]) B
        (fun u hu => by
          rcases List.mem_append.1 hu with hu | hu
          · have := hA u hu; omega
          · simp only [List.mem_singleton] at hu; subst hu; simp only; omega)
        (fun u hu => by have := hB u hu; omega) i t n ht hn
      rw [List.append_assoc] at this
      exact this
  | .obj pad ms, off, par, base, A, B, hA, hB, i, t, n, ht, hn => by
    cases i with
    | zero =>
      have hw := JV.within (.obj pad ms) off par base
      have hl := JVtoks_length (.obj pad ms) off par base
      rw [JVtoks] at ht hw hl ⊢
      rw [JVtots] at hn
      simp only [List.getElem?_cons_zero, Option.some.injEq] at ht hn
      simp only [JV.text, List.length_append, List.length_cons, List.length_nil] at hw hB
      rw [spanned_append, spanned_append, spanned_before (fun u hu => by have := hA u hu; rw [← ht]; simp only; omega),
        spanned_after (A := B) (fun u hu => by have := hB u hu; rw [← ht]; simp only; omega), spanned_all (fun u hu => by have := hw u hu; rw [← ht]; simp only; omega), hl, ← hn]
      simp [JV.count]
    | succ i =>
      rw [JVtoks] at ht ⊢
      rw [JVtots] at hn
      rw [List.getElem?_cons_succ] at ht hn
      simp only [JV.text, List.length_append, List.length_cons, List.length_nil] at hB
      have := JMs.sizes ms (off + 1 + pad.length) base (base + 1) (A ++ [⟨.object, off, (off + 1 + pad.length + ms.text.length : Nat) + 1, ms.length, par⟩]) B
        (fun u hu => by
          rcases List.mem_append.1 hu with hu | hu
          · have := hA u hu; omega
          · simp only [List.mem_singleton] at hu; subst hu; simp only; omega)
        (fun u hu => by have := hB u hu; omega) i t n ht hn
      rw [List.append_assoc] at this
      exact this
theorem JEs.sizes : ∀ (es : JEs) (off par base : Nat) (A B : List Tok), (∀ u ∈ A, u.start < off) → (∀ u ∈ B, ((off + es.text.length : Nat) : Int) < u.start ∧ u.start ≤ u.end_) →
    ∀ (i : Nat) (t : Tok) (n : Nat), (JEtoks es off par base)[i]? = some t → (JEtots es)[i]? = some n → spanned (A ++ (JEtoks es off par base ++ B)) t = n
  | .nil, _, _, _, _, _, _, _, i, t, n, ht, _ => by rw [JEtoks] at ht; simp at ht
  | .cons w v w' rest, off, par, base, A, B, hA, hB, i, t, n, ht, hn => by
    rw [JEtoks] at ht ⊢
    rw [JEtots] at hn
    simp only [JEs.text, List.length_append] at hB
    have hr : ∀ u ∈ JEtoks rest (off + w.length + v.text.length + w'.length + (comma rest.isNil).length) par (base + v.count),
        ((off + w.length + v.text.length : Nat) : Int) < u.start ∧ u.start ≤ u.end_ := by
      intro u hu
      have hc : (comma rest.isNil).length = 1 := by
        cases rest with
        | nil => rw [JEtoks] at hu; simp at hu
        | cons => rfl
      have := JEs.within rest _ par _ u hu
      omega
    rcases getElem?_append_cases ht with ht | ⟨hl, ht⟩
    · have hi : i < v.count := by have := (List.getElem?_eq_some_iff.1 ht).1; rwa [JVtoks_length] at this
      rw [List.getElem?_append_left (by rw [JVtots_length]; exact hi)] at hn
      rw [List.append_assoc]
      exact JV.sizes v (off + w.length) par base A _ (fun u hu => by have := hA u hu; omega) (fun u hu => by
        rcases List.mem_append.1 hu with hu | hu
        · exact hr u hu
        · have := hB u hu; omega) i t n ht hn
    · rw [JVtoks_length] at hl ht
      rw [List.getElem?_append_right (by rw [JVtots_length]; exact hl), JVtots_length] at hn
      have := JEs.sizes rest _ par (base + v.count) (A ++ JVtoks v (off + w.length) par base) B (fun u hu => by
        have hc : (comma rest.isNil).length = 1 := by
          cases rest with
          | nil => rw [JEtoks] at ht; simp at ht
          | cons => rfl
        rcases List.mem_append.1 hu with hu | hu
        · have := hA u hu; omega
        · have := JV.within v _ par base u hu; omega) (fun u hu => by have := hB u hu; omega) _ t n ht hn
      rw [List.append_assoc] at this
      rw [List.append_assoc]
      exact this
theorem JMs.sizes : ∀ (ms : JMs) (off par base : Nat) (A B : List Tok), (∀ u ∈ A, u.start < off) → (∀ u ∈ B, ((off + ms.text.length : Nat) : Int) < u.start ∧ u.start ≤ u.end_) →
    ∀ (i : Nat) (t : Tok) (n : Nat), (JMtoks ms off par base)[i]? = some t → (JMtots ms)[i]? = some n → spanned (A ++ (JMtoks ms off par base ++ B)) t = n
  | .nil, _, _, _, _, _, _, _, i, t, n, ht, _ => by rw [JMtoks] at ht; simp at ht
  | .cons w k w1 w2 v w3 rest, off, par, base, A, B, hA, hB, i, t, n, ht, hn => by
    rw [JMtoks] at ht ⊢
    rw [JMtots] at hn
    simp only [JMs.text, List.length_append, List.length_cons, List.length_nil] at hB
    have hr : ∀ u ∈ JMtoks rest (off + w.length + 1 + k.length + 1 + w1.length + 1 + w2.length + v.text.length + w3.length + (comma rest.isNil).length) par (base + 1 + v.count),
        ((off + w.length + 1 + k.length + 1 + w1.length + 1 + w2.length + v.text.length : Nat) : Int) < u.start ∧ u.start ≤ u.end_ := by
      intro u hu
      have hc : (comma rest.isNil).length = 1 := by
        cases rest with
        | nil => rw [JMtoks] at hu; simp at hu
        | cons => rfl
      have := JMs.within rest _ par _ u hu
      omega
    cases i with
    | zero =>
      simp only [List.getElem?_cons_zero, Option.some.injEq] at ht hn
      rw [spanned_append, List.cons_append, ← List.singleton_append, spanned_append, spanned_before (fun u hu => by have := hA u hu; rw [← ht]; simp only; omega),
        spanned_all (A := [_]) (fun u hu => by simp only [List.mem_singleton] at hu; rw [hu, ← ht]; simp), spanned_after (fun u hu => ?_), ← hn]
      · rfl
      · rw [← ht]
        simp only
        rcases List.mem_append.1 hu with hu | hu
        · rcases List.mem_append.1 hu with hu | hu
          · have := JV.within v _ base (base + 1) u hu; omega
          · have := hr u hu; omega
        · have := hB u hu; omega
    | succ i =>
      rw [List.getElem?_cons_succ] at ht hn
      rcases getElem?_append_cases ht with ht | ⟨hl, ht⟩
      · have hi : i < v.count := by have := (List.getElem?_eq_some_iff.1 ht).1; rwa [JVtoks_length] at this
        rw [List.getElem?_append_left (by rw [JVtots_length]; exact hi)] at hn
        have := JV.sizes v (off + w.length + 1 + k.length + 1 + w1.length + 1 + w2.length) base (base + 1)
          (A ++ [⟨.string, ((off + w.length : Nat) : Int) + 1, ((off + w.length : Nat) : Int) + 1 + k.length, 1, par⟩]) (JMtoks rest _ par (base + 1 + v.count) ++ B) (fun u hu => by
            rcases List.mem_append.1 hu with hu | hu
            · have := hA u hu; omega
            · simp only [List.mem_singleton] at hu; subst hu; simp only; omega) (fun u hu => by
            rcases List.mem_append.1 hu with hu | hu
            · exact hr u hu
            · have := hB u hu; omega) i t n ht hn
        simp only [List.append_assoc, List.cons_append, List.nil_append] at this ⊢
        exact this
      · rw [JVtoks_length] at hl ht
        rw [List.getElem?_append_right (by rw [JVtots_length]; exact hl), JVtots_length] at hn
        have := JMs.sizes rest _ par (base + 1 + v.count)
          (A ++ (⟨.string, ((off + w.length : Nat) : Int) + 1, ((off + w.length : Nat) : Int) + 1 + k.length, 1, par⟩ :: JVtoks v (off + w.length + 1 + k.length + 1 + w1.length + 1 + w2.length) base (base + 1))) B
          (fun u hu => by
            have hc : (comma rest.isNil).length = 1 := by
              cases rest with
              | nil => rw [JMtoks] at ht; simp at ht
              | cons => rfl
            rcases List.mem_append.1 hu with hu | hu
            · have := hA u hu; omega
            rcases List.mem_cons.1 hu with hu | hu
            · subst hu; simp only; omega
            · have := JV.within v _ base (base + 1) u hu; omega) (fun u hu => by have := hB u hu; omega) _ t n ht hn
        simp only [List.append_assoc, List.cons_append] at this ⊢
        exact this
end

/-! ### walking the tree -/

mutual
/-- the elements of a value with their depths, in the order of the text; `h` is the handle of the value, `base` its token -/
def JVwalk : JV → (h base deep : Nat) → List (Nat × Nat)
  | .str _, h, _, deep => [(h, deep)]
  | .prim _, h, _, deep => [(h, deep)]
  | .arr _ es, h, base, deep => (h, deep) :: JEwalk es (base + 1) (deep + 1)
  | .obj _ ms, h, base, deep => (h, deep) :: JMwalk ms (base + 1) (deep + 1)
def JEwalk : JEs → (base deep : Nat) → List (Nat × Nat)
  | .nil, _, _ => []
  | .cons _ v _ rest, base, deep => JVwalk v base base deep ++ JEwalk rest (base + v.count) deep
def JMwalk : JMs → (base deep : Nat) → List (Nat × Nat)
  | .nil, _, _ => []
  | .cons _ _ _ _ v _ rest, base, deep => JVwalk v base (base + 1) deep ++ JMwalk rest (base + 1 + v.count) deep
end

mutual
theorem JV.walk_eq {d : JDoc} : ∀ (v : JV) (off : Nat) (par : Int) (base h deep fuel : Nat), Seg d.toks base (JVtoks v off par base) → Tots d.tot base (JVtots v) → d.valueTok h = .ok base →
    2 * v.count ≤ fuel → d.walk fuel h deep = .ok (JVwalk v h base deep)
  | .str s, off, par, base, h, deep, fuel, hs, ht, hv, hf => by
    obtain ⟨m, rfl⟩ : ∃ m, fuel = m + 2 := ⟨fuel - 2, by simp only [JV.count] at hf; omega⟩
    rw [JVtoks] at hs
    have hc : d.children h = .ok [] := by
      unfold JDoc.children
      rw [hv, Out.ok_bind, tok_eq hs.head, Out.ok_bind]
      rfl
    rw [JDoc.walk, hc, Out.ok_bind, JDoc.walkAll, JVwalk]
    rfl
  | .prim s, off, par, base, h, deep, fuel, hs, ht, hv, hf => by
    obtain ⟨m, rfl⟩ : ∃ m, fuel = m + 2 := ⟨fuel - 2, by simp only [JV.count] at hf; omega⟩
    rw [JVtoks] at hs
    have hc : d.children h = .ok [] := by
      unfold JDoc.children
      rw [hv, Out.ok_bind, tok_eq hs.head, Out.ok_bind]
      rfl
    rw [JDoc.walk, hc, Out.ok_bind, JDoc.walkAll, JVwalk]
    rfl
  | .arr pad es, off, par, base, h, deep, fuel, hs, ht, hv, hf => by
    obtain ⟨m, rfl⟩ : ∃ m, fuel = m + 1 := ⟨fuel - 1, by simp only [JV.count] at hf; omega⟩
    simp only [JV.count] at hf
    rw [JVtoks] at hs
    rw [JVtots] at ht
    have t2 : Tots d.tot (base + 1) (JEtots es) := Tots.right (A := [_]) ht
    have hc : d.children h = .ok (JEhandles es (base + 1)) := by
      unfold JDoc.children
      rw [hv, Out.ok_bind, tok_eq hs.head, Out.ok_bind]
      exact childLoop_elems es _ base (base + 1) hs.tail t2
    rw [JDoc.walk, hc, Out.ok_bind, JEs.walk_eq es _ base (base + 1) (deep + 1) m hs.tail t2 hs.head rfl (by omega), JVwalk]
    rfl
  | .obj pad ms, off, par, base, h, deep, fuel, hs, ht, hv, hf => by
    obtain ⟨m, rfl⟩ : ∃ m, fuel = m + 1 := ⟨fuel - 1, by simp only [JV.count] at hf; omega⟩
    simp only [JV.count] at hf
    rw [JVtoks] at hs
    rw [JVtots] at ht
    have t2 : Tots d.tot (base + 1) (JMtots ms) := Tots.right (A := [_]) ht
    have hc : d.children h = .ok (JMhandles ms (base + 1)) := by
      unfold JDoc.children
      rw [hv, Out.ok_bind, tok_eq hs.head, Out.ok_bind]
      exact childLoop_members ms _ base (base + 1) hs.tail t2
    rw [JDoc.walk, hc, Out.ok_bind, JMs.walk_eq ms _ base (base + 1) (deep + 1) m hs.tail t2 hs.head rfl (by omega), JVwalk]
    rfl
theorem JEs.walk_eq {d : JDoc} : ∀ (es : JEs) (off par base deep fuel : Nat) {c : Tok}, Seg d.toks base (JEtoks es off par base) → Tots d.tot base (JEtots es) → d.toks[par]? = some c → c.type = .array →
    2 * es.count + 1 ≤ fuel → d.walkAll fuel (JEhandles es base) deep = .ok (JEwalk es base deep)
  | .nil, _, _, _, deep, fuel, _, _, _, _, _, hf => by
    obtain ⟨m, rfl⟩ : ∃ m, fuel = m + 1 := ⟨fuel - 1, by omega⟩
    rw [JEhandles, JDoc.walkAll, JEwalk]; rfl
  | .cons w v w' rest, off, par, base, deep, fuel, c, hs, ht, hp, ha, hf => by
    obtain ⟨m, rfl⟩ : ∃ m, fuel = m + 1 := ⟨fuel - 1, by omega⟩
    have := JV.count_pos v
    simp only [JEs.count] at hf
    rw [JEtoks] at hs
    rw [JEtots] at ht
    obtain ⟨t, l, htl, htp⟩ := JVtoks_head v (off + w.length) par base
    have h1 : d.toks[base]? = some t := by have := hs.left; rw [htl] at this; exact this.head
    have hs2 := hs.right
    have t2 := ht.right
    rw [JVtoks_length] at hs2
    rw [JVtots_length] at t2
    rw [JEhandles, JDoc.walkAll, JV.walk_eq v _ par base base deep m hs.left ht.left (by rw [valueTok_in h1 htp hp, if_neg (by rw [ha]; decide)]) (by omega), Out.ok_bind,
      JEs.walk_eq rest _ par (base + v.count) deep m hs2 t2 hp ha (by omega), JEwalk]
    rfl
theorem JMs.walk_eq {d : JDoc} : ∀ (ms : JMs) (off par base deep fuel : Nat) {c : Tok}, Seg d.toks base (JMtoks ms off par base) → Tots d.tot base (JMtots ms) → d.toks[par]? = some c → c.type = .object →
    2 * ms.count + 1 ≤ fuel → d.walkAll fuel (JMhandles ms base) deep = .ok (JMwalk ms base deep)
  | .nil, _, _, _, deep, fuel, _, _, _, _, _, hf => by
    obtain ⟨m, rfl⟩ : ∃ m, fuel = m + 1 := ⟨fuel - 1, by omega⟩
    rw [JMhandles, JDoc.walkAll, JMwalk]; rfl
  | .cons w k w1 w2 v w3 rest, off, par, base, deep, fuel, c, hs, ht, hp, ha, hf => by
    obtain ⟨m, rfl⟩ : ∃ m, fuel = m + 1 := ⟨fuel - 1, by omega⟩
    have := JV.count_pos v
    simp only [JMs.count] at hf
    rw [JMtoks] at hs
    rw [JMtots] at ht
    have hs2 := hs.tail.right
    have t1 : d.tot base = 1 := ht 0 1 rfl
    have t2 : Tots d.tot (base + 1) (JVtots v ++ JMtots rest) := Tots.right (A := [1]) ht
    have t3 := t2.right
    rw [JVtoks_length] at hs2
    rw [JVtots_length] at t3
    rw [JMhandles, JDoc.walkAll, JV.walk_eq v _ base (base + 1) base deep m hs.tail.left t2.left (by rw [valueTok_in hs.head rfl hp, if_pos ha, t1]; rfl) (by omega), Out.ok_bind,
      JMs.walk_eq rest _ par (base + 1 + v.count) deep m hs2 t3 hp ha (by omega), JMwalk]
    rfl
end

mutual
theorem JVwalk_sorted : ∀ (v : JV) (h base deep : Nat), h ≤ base → ((JVwalk v h base deep).map (·.1)).Pairwise (· < ·) ∧ ∀ x ∈ (JVwalk v h base deep).map (·.1), h ≤ x ∧ x < base + v.count
  | .str _, h, base, deep, hh => by simp [JVwalk, JV.count]; omega
  | .prim _, h, base, deep, hh => by simp [JVwalk, JV.count]; omega
  | .arr pad es, h, base, deep, hh => by
    obtain ⟨a, b⟩ := JEwalk_sorted es (base + 1) (deep + 1)
    rw [JVwalk, List.map_cons, JV.count]
    refine ⟨List.pairwise_cons.2 ⟨fun x hx => ?_, a⟩, fun x hx => ?_⟩
    · have := b x hx; omega
    · rcases List.mem_cons.1 hx with rfl | hx
      · omega
      · have := b x hx; omega
  | .obj pad ms, h, base, deep, hh => by
    obtain ⟨a, b⟩ := JMwalk_sorted ms (base + 1) (deep + 1)
    rw [JVwalk, List.map_cons, JV.count]
    refine ⟨List.pairwise_cons.2 ⟨fun x hx => ?_, a⟩, fun x hx => ?_⟩
    · have := b x hx; omega
    · rcases List.mem_cons.1 hx with rfl | hx
      · omega
      · have := b x hx; omega
theorem JEwalk_sorted : ∀ (es : JEs) (base deep : Nat), ((JEwalk es base deep).map (·.1)).Pairwise (· < ·) ∧ ∀ x ∈ (JEwalk es base deep).map (·.1), base ≤ x ∧ x < base + es.count
  | .nil, base, deep => by simp [JEwalk]
  | .cons w v w' rest, base, deep => by
    obtain ⟨a, b⟩ := JVwalk_sorted v base base deep (Nat.le_refl _)
    obtain ⟨a', b'⟩ := JEwalk_sorted rest (base + v.count) deep
    rw [JEwalk, List.map_append, JEs.count]
    refine ⟨List.pairwise_append.2 ⟨a, a', fun x hx y hy => ?_⟩, fun x hx => ?_⟩
    · have := b x hx; have := b' y hy; omega
    · rcases List.mem_append.1 hx with hx | hx
      · have := b x hx; omega
      · have := b' x hx; omega
theorem JMwalk_sorted : ∀ (ms : JMs) (base deep : Nat), ((JMwalk ms base deep).map (·.1)).Pairwise (· < ·) ∧ ∀ x ∈ (JMwalk ms base deep).map (·.1), base ≤ x ∧ x < base + ms.count
  | .nil, base, deep => by simp [JMwalk]
  | .cons w k w1 w2 v w3 rest, base, deep => by
    obtain ⟨a, b⟩ := JVwalk_sorted v base (base + 1) deep (by omega)
    obtain ⟨a', b'⟩ := JMwalk_sorted rest (base + 1 + v.count) deep
    rw [JMwalk, List.map_append, JMs.count]
    refine ⟨List.pairwise_append.2 ⟨a, a', fun x hx y hy => ?_⟩, fun x hx => ?_⟩
    · have := b x hx; have := b' y hy; omega
    · rcases List.mem_append.1 hx with hx | hx
      · have := b x hx; omega
      · have := b' x hx; omega
end

mutual
theorem JVwalk_depths : ∀ (v : JV) (h base deep : Nat), (JVwalk v h base deep).map (·.2) = v.depths deep
  | .str _, h, base, deep => by simp [JVwalk, JV.depths]
  | .prim _, h, base, deep => by simp [JVwalk, JV.depths]
  | .arr pad es, h, base, deep => by simp [JVwalk, JV.depths, JEwalk_depths es]
  | .obj pad ms, h, base, deep => by simp [JVwalk, JV.depths, JMwalk_depths ms]
theorem JEwalk_depths : ∀ (es : JEs) (base deep : Nat), (JEwalk es base deep).map (·.2) = es.depths deep
  | .nil, base, deep => by simp [JEwalk, JEs.depths]
  | .cons w v w' rest, base, deep => by simp [JEwalk, JEs.depths, JVwalk_depths v, JEwalk_depths rest]
theorem JMwalk_depths : ∀ (ms : JMs) (base deep : Nat), (JMwalk ms base deep).map (·.2) = ms.depths deep
  | .nil, base, deep => by simp [JMwalk, JMs.depths]
  | .cons w k w1 w2 v w3 rest, base, deep => by simp [JMwalk, JMs.depths, JVwalk_depths v, JMwalk_depths rest]
end

end BX
