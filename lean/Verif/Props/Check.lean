import Verif.Props.Room
/-
Property C30: what the acceptance of a file guarantees, and what it does not.
-/
namespace BX
open XBT Spec

/-! ### the loaded tables -/

theorem Img.rd_inv {f : Img} {a : Int} {n : Nat} {l : List UInt8} (h : f.rd a n = .ok l) : 0 ≤ a ∧ a + n ≤ f.size := by
  unfold Img.rd at h
  split at h
  · assumption
  · cases h

theorem Img.i32_inv {f : Img} {a v : Int} (h : f.i32 a = .ok v) : 0 ≤ a ∧ a + 4 ≤ f.size := by
  unfold Img.i32 at h
  obtain ⟨l, hl, -⟩ := Out.bind_eq_ok h
  exact Img.rd_inv hl

theorem takeWhile_append_left {α : Type} (p : α → Bool) (l : List α) (n : Nat) (h : ((l.take n).takeWhile p).length < (l.take n).length) :
    l.takeWhile p = (l.take n).takeWhile p := by
  induction l generalizing n with
  | nil => simp
  | cons a l ih =>
    cases n with
    | zero => simp at h
    | succ n =>
      simp only [List.take_succ_cons, List.takeWhile_cons] at h ⊢
      split
      · next ha =>
        rw [if_pos ha] at h
        rw [ih n (by simpa using h)]
      · rfl

/-- a terminated string of less than `max` bytes can be read -/
theorem Img.strnlen_str {f : Img} {a : Int} {max n : Nat} (h : f.strnlen a max = .ok n) (hn : n ≠ max) : ∃ s, f.str a = .ok s ∧ s.length = n ∧ 0 ≤ a ∧ a + n < f.size := by
  unfold Img.strnlen at h
  split at h
  · next ha =>
    simp only at h
    have hfull : ∀ s : List UInt8, s = ((slice f.mem a.toNat (f.size - a.toNat)).take max).takeWhile (· ≠ 0) →
        s.length < ((slice f.mem a.toNat (f.size - a.toNat)).take max).length → s.length = n → ∃ s, f.str a = .ok s ∧ s.length = n ∧ 0 ≤ a ∧ a + n < f.size := by
      intro s hs h1 h2
      have h3 := takeWhile_append_left (· ≠ 0) (slice f.mem a.toNat (f.size - a.toNat)) max (by rw [← hs]; exact h1)
      rw [← hs] at h3
      have h5 : ((slice f.mem a.toNat (f.size - a.toNat)).take max).length ≤ (slice f.mem a.toNat (f.size - a.toNat)).length := by
        rw [List.length_take]; omega
      refine ⟨s, ?_, h2, ha, ?_⟩
      · unfold Img.str
        rw [if_pos ha]
        simp only
        rw [h3, if_neg (by omega)]
      · rw [slice_length] at h5; omega
    split at h
    · next h1 => exact hfull _ rfl h1 (by simpa using h)
    · split at h
      · cases h; exact absurd rfl hn
      · cases h
  · cases h

theorem Img.loadLoop_inv {f : Img} {x refs A0 A1 : Int} : ∀ (n : Nat) (s : Int), f.loadLoop x refs A0 A1 n s = .ok true →
    ∀ i : Int, s ≤ i → i < s + n → ∃ r v, f.i32 (refs + 4 * i) = .ok r ∧ f.str (x + r) = .ok v ∧ A0 ≤ x + r ∧ 0 ≤ x + r ∧ x + r + v.length < f.size
  | 0, s, _, i, h1, h2 => by omega
  | n+1, s, h, i, h1, h2 => by
    unfold Img.loadLoop at h
    obtain ⟨r, hr, h⟩ := Out.bind_eq_ok h
    simp only at h
    split at h
    · cases h
    · split at h
      · cases h
      · obtain ⟨len, hl, h⟩ := Out.bind_eq_ok h
        split at h
        · cases h
        · next hne =>
          by_cases hi : i = s
          · subst hi
            obtain ⟨v, k1, k2, k3, k4⟩ := Img.strnlen_str hl hne
            exact ⟨r, v, hr, k1, by omega, k3, by omega⟩
          · exact Img.loadLoop_inv n (s + 1) h i (by omega) (by omega)

/-- C30, names: in every file whose symbol table was loaded, whatever its bytes are, every id (in range or not) translates to a
name without reading outside of the file. -/
theorem C30_symbols_partial (f : Img) (x : Int) (r : RTab) (h : f.load x = .ok r) (id : Int) : ∃ s, f.getSymbol r id = .ok s := by
  unfold Img.getSymbol
  split
  · exact ⟨_, rfl⟩
  · split
    · exact ⟨_, rfl⟩
    · next h1 h2 =>
      unfold Img.load at h
      obtain ⟨pc, -, h⟩ := Out.bind_eq_ok h
      obtain ⟨count, -, h⟩ := Out.bind_eq_ok h
      split at h
      · cases h
      · split at h
        · cases h; simp only at h2; omega
        · obtain ⟨pt, -, h⟩ := Out.bind_eq_ok h
          obtain ⟨tc, -, h⟩ := Out.bind_eq_ok h
          obtain ⟨b, -, h⟩ := Out.bind_eq_ok h
          simp only at h
          generalize (if tc = INT32_NULL then (0 : Int) else tc) = tc' at h
          split at h
          · cases h
          · split at h
            · cases h
            · obtain ⟨okk, hl, h⟩ := Out.bind_eq_ok h
              split at h
              · next hok =>
                cases h
                subst hok
                simp only at h2 ⊢
                obtain ⟨r, v, k1, k2, -⟩ := Img.loadLoop_inv _ _ hl id (by omega) (by omega)
                rw [k1]
                exact ⟨v, k2⟩
              · cases h

/-- C30, types: the same for the type of a symbol, unless the table claims a negative number of symbols. -/
theorem C30_types_partial (f : Img) (x : Int) (r : RTab) (h : f.load x = .ok r) (hc : 0 ≤ r.count) (id : Int) : ∃ t, f.getType r id = .ok t := by
  unfold Img.getType
  split
  · exact ⟨_, rfl⟩
  · split
    · exact ⟨_, rfl⟩
    · next h1 h2 =>
      unfold Img.load at h
      obtain ⟨pc, -, h⟩ := Out.bind_eq_ok h
      obtain ⟨count, -, h⟩ := Out.bind_eq_ok h
      split at h
      · cases h
      · split at h
        · cases h; exact ⟨_, rfl⟩
        · next hc0 =>
          obtain ⟨pt, -, h⟩ := Out.bind_eq_ok h
          obtain ⟨tc, -, h⟩ := Out.bind_eq_ok h
          obtain ⟨b, -, h⟩ := Out.bind_eq_ok h
          simp only at h
          generalize (if tc = INT32_NULL then (0 : Int) else tc) = tc' at h
          split at h
          · cases h
          · split at h
            · cases h
            · next refs size hA =>
              obtain ⟨okk, hl, h⟩ := Out.bind_eq_ok h
              split at h
              · next hok =>
                cases h
                subst hok
                simp only at h2 hc ⊢
                obtain ⟨r, v, k1, k2, k3, k4, k5⟩ := Img.loadLoop_inv _ _ hl 0 (by omega) (by omega)
                have := Img.i32_inv k1
                unfold Img.u8 Img.rd
                rw [if_pos (by omega)]
                exact ⟨_, rfl⟩
              · cases h

/-! ### items -/

/-- `y` is `x` or a descendant of `x`, as the reader walks -/
inductive Reach (f : Img) : Int → Int → Prop
  | refl (x : Int) : Reach f x x
  | child (x y z : Int) (i : Int) : f.getChildByIndex x i = .ok (some y) → Reach f y z → Reach f x z

/-- the attributes of the item at `y` all have a type that is stored in the description -/
def AllInline (f : Img) (y : Int) : Prop :=
  ∀ pc, f.paramcount y = .ok pc → ∀ i : Nat, (i : Int) < pc → ∃ c, f.pType (y + 12 + 8 * i) = .ok c ∧ c ∈ inlineCodes

theorem Img.checkParams_inline {f : Img} {x len pcount : Int} : ∀ (n : Nat) (p : Int), (∀ i : Nat, i < n → ∃ c, f.pType (p + 8 * i) = .ok c ∧ c ∈ inlineCodes) →
    ∀ r, f.checkParams x len pcount n p = .ok r → r ≠ some false → r = none ∧ ∀ i : Nat, i < n → ∃ nm, f.pName (p + 8 * i) = .ok nm ∧ -11 < nm ∧ nm < pcount
  | 0, p, _, r, h, _ => by
    unfold Img.checkParams at h
    cases h
    exact ⟨rfl, by omega⟩
  | n+1, p, hin, r, h, hr => by
    unfold Img.checkParams at h
    obtain ⟨nm, hnm, h⟩ := Out.bind_eq_ok h
    obtain ⟨c, hc, h⟩ := Out.bind_eq_ok h
    split at h
    · cases h; exact absurd rfl hr
    · split at h
      · cases h; exact absurd rfl hr
      · split at h
        · cases h; exact absurd rfl hr
        · obtain ⟨c', hc', hmem⟩ := hin 0 (by omega)
          simp only [Int.natCast_zero, Int.mul_zero, Int.add_zero] at hc'
          rw [hc] at hc'
          cases hc'
          rw [if_pos hmem] at h
          have e : ∀ i : Nat, p + 8 + 8 * (i : Int) = p + 8 * ((i + 1 : Nat) : Int) := by intro i; omega
          obtain ⟨i1, i2⟩ := Img.checkParams_inline n (p + 8) (fun i hi => by rw [e i]; exact hin (i + 1) (by omega)) r h hr
          refine ⟨i1, ?_⟩
          intro i hi
          cases i with
          | zero => exact ⟨nm, by simpa using hnm, by omega, by omega⟩
          | succ i => rw [← e i]; exact i2 i (by omega)

theorem Img.checkChildren_inv {f : Img} {chk : Int → Out Bool} {x : Int} : ∀ (n : Nat) (i : Int), f.checkChildren chk x n i = .ok true →
    ∀ j : Int, i ≤ j → j < i + n → ∃ y, f.getChildByIndex x j = .ok (some y) ∧ chk y = .ok true
  | 0, i, _, j, h1, h2 => by omega
  | n+1, i, h, j, h1, h2 => by
    unfold Img.checkChildren at h
    obtain ⟨ch, hch, h⟩ := Out.bind_eq_ok h
    split at h
    · cases h
    · next y =>
      obtain ⟨r, hr, h⟩ := Out.bind_eq_ok h
      split at h
      · next hrt =>
        subst hrt
        by_cases hj : j = i
        · subst hj; exact ⟨y, hch, hr⟩
        · exact Img.checkChildren_inv n (i + 1) h j (by omega) (by omega)
      · cases h

/-- C30, items: if the recursive check accepts an item and no item below it has an attribute with a value outside of its
description, then every item that can be reached from it lies inside of the file, is aligned, and refers only to loaded (or
reserved) names. With other attributes the check ends early, see `C30_references_false`. -/
theorem C30_items_partial (f : Img) (tcount pcount : Int) (fuel : Nat) (x : Int) (h : f.check tcount pcount true fuel x = .ok true)
    (hin : ∀ y, Reach f x y → AllInline f y) (y : Int) (hy : Reach f x y) :
    0 ≤ y ∧ y + 12 ≤ f.size ∧ y % 4 = 0 ∧ (∃ len, f.length y = .ok len ∧ y + len ≤ f.size) ∧ (∃ nm, f.name y = .ok nm ∧ -11 < nm ∧ nm < tcount) ∧
    (∃ pc, f.paramcount y = .ok pc ∧ ∀ i : Nat, (i : Int) < pc → ∃ nm, f.pName (y + 12 + 8 * i) = .ok nm ∧ -11 < nm ∧ nm < pcount) ∧
    (∃ cc, f.childcount y = .ok cc ∧ ∀ i, 0 ≤ i → i < cc → ∃ z, f.getChildByIndex y i = .ok (some z) ∧ 0 ≤ z ∧ z + 12 ≤ f.size) := by
  induction fuel generalizing x with
  | zero => unfold Img.check at h; cases h
  | succ fuel ih =>
    have hfirst : ∀ (fuel : Nat) (z : Int), f.check tcount pcount true fuel z = .ok true → 0 ≤ z ∧ z + 12 ≤ f.size := by
      intro fuel z hz
      cases fuel with
      | zero => unfold Img.check at hz; cases hz
      | succ fuel =>
        unfold Img.check at hz
        split at hz
        · cases hz
        · split at hz
          · cases hz
          · exact ⟨by omega, by omega⟩
    have h' := h
    unfold Img.check at h
    split at h
    · cases h
    · split at h
      · cases h
      · obtain ⟨len, hlen, h⟩ := Out.bind_eq_ok h
        split at h
        · cases h
        · split at h
          · cases h
          · obtain ⟨nm, hnm, h⟩ := Out.bind_eq_ok h
            obtain ⟨pc, hpc, h⟩ := Out.bind_eq_ok h
            obtain ⟨cc, hcc, h⟩ := Out.bind_eq_ok h
            split at h
            · cases h
            · split at h
              · cases h
              · split at h
                · cases h
                · obtain ⟨r, hr, h⟩ := Out.bind_eq_ok h
                  have hr' : r ≠ some false := by rintro rfl; cases h
                  obtain ⟨rfl, hps⟩ := Img.checkParams_inline pc.toNat (x + 12) (fun i hi => hin x (Reach.refl x) pc hpc i (by omega)) r hr hr'
                  simp only [if_true] at h
                  have hch := Img.checkChildren_inv _ _ h
                  cases hy with
                  | refl =>
                    refine ⟨by omega, by omega, by omega, ⟨len, hlen, by omega⟩, ⟨nm, hnm, by omega, by omega⟩, ⟨pc, hpc, fun i hi => hps i (by omega)⟩, cc, hcc, ?_⟩
                    intro i h1 h2
                    obtain ⟨z, k1, k2⟩ := hch i h1 (by omega)
                    exact ⟨z, k1, hfirst _ _ k2⟩
                  | child _ w _ i hw hyw =>
                    have hi : 0 ≤ i ∧ i < cc := by
                      unfold Img.getChildByIndex at hw
                      rw [hcc] at hw
                      simp only [Out.ok_bind] at hw
                      split at hw
                      · cases hw
                      · omega
                    obtain ⟨z, k1, k2⟩ := hch i hi.1 (by omega)
                    rw [hw] at k1
                    cases k1
                    exact ih w k2 (fun y hy' => hin y (Reach.child x w y i hw hy')) hyw

/-- a small file with the tree `<a>v</a>` -/
def exFile : Out Img := makeXb (fun _ => [0,0,0,0]) (b8 "f") 0 100 (fun _ => 0) (.mk (b8 "a") (.text "v".toList) [] [])

/-- the same file with four bytes changed -/
def patched (a : Nat) (v : Int) : Out Img := do
  let f ← exFile
  return ⟨memPut f.mem a (le32 v), f.size⟩

/-- C30 is false: a file whose only damage is a reference (from the payload to its root element) far outside of the file is
accepted, since the check of the root item ends at its attribute `name`, before looking at any child; reading the root element
then leaves the mapping. -/
theorem C30_references_false : (do let f ← patched 172 1000000; let r ← f.initialize 10; return r.root.isSome) = Out.ok true ∧
    (do let f ← patched 172 1000000; let r ← f.initialize 10
        match r.root with
        | none => return 0
        | some x => f.name x : Out Int) = .ub := by decide +kernel

/-- C30 is false already while opening: the size of the table of names is believed without looking at the size of the file, and
searching the end of a name leaves the mapping. -/
theorem C30_load_false : (do let f ← patched 112 1000000; let f' : Img := ⟨fun a => if a < 120 then f.mem a else 1, f.size⟩; let r ← f'.initialize 10; return r.root.isSome) = Out.ub := by
  decide +kernel

/-- the example file is accepted and its root element can be read -/
example : (do let f ← exFile; let r ← f.initialize 10
              match r.root with
              | none => Out.fail
              | some x => f.getText x) = .ok (some (b8 "v")) := by decide +kernel

/-- the file made of `<a n="5"><b>v</b></a>` -/
def exTree : Img :=
  match makeXb (fun _ => [0,0,0,0]) (b8 "f") 0 100 (fun _ => 0) (.mk (b8 "a") .none [(b8 "n", .text "5".toList)] [.mk (b8 "b") (.text "v".toList) [] []]) with
  | .ok f => f
  | _ => ⟨fun _ => 0, 0⟩

/-- the hypotheses of `C30_items_partial` are met by the root element of that file, which has an attribute and a child -/
example : exTree.check 2 1 true 10 196 = .ok true ∧ (∀ y, Reach exTree 196 y → AllInline exTree y) ∧ Reach exTree 196 224 := by
  have c1 : exTree.childcount 196 = .ok 1 := by decide +kernel
  have c2 : exTree.childcount 224 = .ok 0 := by decide +kernel
  have g : exTree.getChildByIndex 196 0 = .ok (some 224) := by decide +kernel
  have p1 : exTree.paramcount 196 = .ok 1 := by decide +kernel
  have p2 : exTree.paramcount 224 = .ok 0 := by decide +kernel
  have t1 : exTree.pType (196 + 12 + 8 * (0 : Nat)) = .ok 4 := by decide +kernel
  refine ⟨by decide +kernel, ?_, Reach.child _ _ _ 0 g (Reach.refl _)⟩
  have only : ∀ x cc i w, exTree.childcount x = .ok cc → exTree.getChildByIndex x i = .ok (some w) → 0 ≤ i ∧ i < cc := by
    intro x cc i w h1 h2
    unfold Img.getChildByIndex at h2
    rw [h1] at h2
    simp only [Out.ok_bind] at h2
    split at h2
    · cases h2
    · omega
  have k2 : AllInline exTree 224 := by
    intro pc h i hi
    rw [p2] at h; cases h; omega
  intro y hy
  cases hy with
  | refl =>
    intro pc h i hi
    rw [p1] at h; cases h
    have : i = 0 := by omega
    subst this
    exact ⟨4, t1, by decide⟩
  | child _ w _ i hw hyw =>
    have := only _ _ _ _ c1 hw
    have : i = 0 := by omega
    subst this
    rw [g] at hw; cases hw
    cases hyw with
    | refl => exact k2
    | child _ w _ i hw hyw =>
      have := only _ _ _ _ c2 hw
      omega

end BX
