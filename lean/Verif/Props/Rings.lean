import Verif.Lemmas.RingRep
/-
Property C36: the links between elements behave as lists.
-/
namespace BX
open XBT Spec

/-! ### enumeration -/

/-- walking along a circle from the element `a` of the list `a :: l` to its end -/
theorem forwards_from {P : Pool} {els V fl} (s : Sees P els V fl) {p : Nat} (hp : p ∈ els) {c : Nat} (hc : V 16 p = c) {pv : Nat → Nat} : ∀ (l : List Nat) (a fuel : Nat),
    Links (V 8) pv (a :: l ++ [c]) → (∀ x ∈ a :: l, x ∈ els) → c ∉ l → l.length < fuel → P.forwards p fuel a = .ok (l.map Int.ofNat)
  | [], a, fuel, hL, hm, hcl, hf => by
    obtain ⟨n, rfl⟩ : ∃ n, fuel = n + 1 := ⟨fuel - 1, by simp at hf; omega⟩
    have ha := hm a (by simp)
    have hnx : V 8 a = c := by simp [Links] at hL; exact hL.1
    have ha0 := s.lt ha
    unfold Pool.forwards Pool.nextChild
    rw [s.child hp, Out.ok_bind, if_neg (by omega), s.bwe hp, Out.ok_bind, s.nx ha, Out.ok_bind, if_pos (by rw [hnx, hc])]
    rfl
  | b :: l, a, fuel, hL, hm, hcl, hf => by
    obtain ⟨n, rfl⟩ : ∃ n, fuel = n + 1 := ⟨fuel - 1, by simp at hf; omega⟩
    have ha := hm a (by simp)
    have hb := hm b (by simp)
    simp only [List.cons_append, Links] at hL
    have ha0 := s.lt ha
    have hbc : b ≠ c := fun h' => hcl (by simp [h'])
    have ih := forwards_from s hp hc l b n hL.2 (fun x hx => hm x (List.mem_cons_of_mem _ hx)) (fun h' => hcl (List.mem_cons_of_mem _ h')) (by simp at hf; omega)
    unfold Pool.forwards Pool.nextChild
    rw [s.child hp, Out.ok_bind, if_neg (by omega), s.bwe hp, Out.ok_bind, s.nx ha, Out.ok_bind, hL.1.1, if_neg (by omega), s.bwe hp, Out.ok_bind]
    simp only [Out.pure_eq, Out.ok_bind, ih]
    rfl

theorem Links_back {nx pv : Nat → Nat} : ∀ (l : List Nat) (a b : Nat), Links nx pv (l ++ [a, b]) → pv b = a
  | [], a, b, h => by simp [Links] at h; exact h.2
  | [x], a, b, h => by simp [Links] at h; exact h.2.2
  | x :: y :: l, a, b, h => by
    simp only [List.cons_append, Links] at h
    exact Links_back (y :: l) a b h.2

/-- walking back along the circle `c :: m`, from its element `b` in front of which are the elements `m'` (in reversed order) -/
theorem backwards_from {P : Pool} {els V fl} (s : Sees P els V fl) {p : Nat} (hp : p ∈ els) {c : Nat} (hc : V 16 p = c) : ∀ (l : List Nat) (b fuel : Nat),
    Links (V 8) (V 12) (l.reverse ++ [b]) → (∀ x ∈ b :: l, x ∈ els) → (b :: l).getLast (by simp) = c → (∀ x ∈ (b :: l).dropLast, x ≠ c) → l.length < fuel →
    P.backwards p fuel b = .ok (l.map Int.ofNat)
  | [], b, fuel, hL, hm, hlast, hcl, hf => by
    obtain ⟨n, rfl⟩ : ∃ n, fuel = n + 1 := ⟨fuel - 1, by simp at hf; omega⟩
    have hb := hm b (by simp)
    have hbc : b = c := by simpa using hlast
    have hb0 := s.lt hb
    unfold Pool.backwards Pool.prevChild
    rw [s.child hp, Out.ok_bind, if_neg (by omega), if_pos (by rw [hc, hbc])]
    rfl
  | a :: l, b, fuel, hL, hm, hlast, hcl, hf => by
    obtain ⟨n, rfl⟩ : ∃ n, fuel = n + 1 := ⟨fuel - 1, by simp at hf; omega⟩
    have hb := hm b (by simp)
    have hb0 := s.lt hb
    have hbc : b ≠ c := hcl b (by simp [List.dropLast])
    simp only [List.reverse_cons, List.append_assoc, List.cons_append, List.nil_append] at hL
    have hpv : V 12 b = a := Links_back _ _ _ hL
    have hL' : Links (V 8) (V 12) (l.reverse ++ [a]) := ((Links_append a [b] l.reverse).1 hL).1
    have ih := backwards_from s hp hc l a n hL' (fun x hx => hm x (List.mem_cons_of_mem _ hx)) (by simpa [List.getLast_cons] using hlast)
      (fun x hx => hcl x (by simp only [List.dropLast_cons_cons]; exact List.mem_cons_of_mem _ hx)) (by simp at hf; omega)
    unfold Pool.backwards Pool.prevChild
    rw [s.child hp, Out.ok_bind, if_neg (by omega), if_neg (by omega), s.bwe hp, Out.ok_bind, s.pv hb, Out.ok_bind, hpv, s.bwe hp, Out.ok_bind]
    simp only [Out.pure_eq, Out.ok_bind, ih]
    rfl

theorem ringLoop_from {P : Pool} {els V fl} (s : Sees P els V fl) {p : Nat} (hp : p ∈ els) {c : Nat} {pv : Nat → Nat} : ∀ (l : List Nat) (a fuel : Nat),
    Links (V 8) pv (a :: l ++ [c]) → (∀ x ∈ a :: l, x ∈ els) → c ∉ l → l.length < fuel → P.ringLoop p c fuel a = .ok ((a :: l).map Int.ofNat)
  | [], a, fuel, hL, hm, hcl, hf => by
    obtain ⟨n, rfl⟩ : ∃ n, fuel = n + 1 := ⟨fuel - 1, by simp at hf; omega⟩
    have ha := hm a (by simp)
    have hnx : V 8 a = c := by simp [Links] at hL; exact hL.1
    unfold Pool.ringLoop
    rw [s.nx ha, Out.ok_bind, if_pos (by rw [hnx])]
    rfl
  | b :: l, a, fuel, hL, hm, hcl, hf => by
    obtain ⟨n, rfl⟩ : ∃ n, fuel = n + 1 := ⟨fuel - 1, by simp at hf; omega⟩
    have ha := hm a (by simp)
    simp only [List.cons_append, Links] at hL
    have hbc : b ≠ c := fun h' => hcl (by simp [h'])
    have ih := ringLoop_from s hp l b n hL.2 (fun x hx => hm x (List.mem_cons_of_mem _ hx)) (fun h' => hcl (List.mem_cons_of_mem _ h')) (by simp at hf; omega)
    unfold Pool.ringLoop
    rw [s.nx ha, Out.ok_bind, hL.1.1, if_neg (by omega), s.bwe hp, Out.ok_bind, ih]
    rfl

theorem enum_forwards {P : Pool} {F : Forest} {els V fl} (s : Sees P els V fl) (r : Lists F els V fl) {p : Nat} (hp : p ∈ els) {fuel : Nat} (hf : (F.at' (.kids p)).length < fuel) :
    P.forwards p fuel 0 = .ok ((F.at' (.kids p)).map Int.ofNat) := by
  have hh := r.head p hp 16 (Or.inl rfl)
  replace hh : V 16 p = (F.at' (.kids p)).headD 0 := hh
  have hr := r.ring (.kids p)
  have hn := r.nodup (.kids p)
  have hm : ∀ x ∈ F.at' (.kids p), x ∈ els := fun x hx => (r.mem x).1 ⟨_, hx⟩
  obtain ⟨n, rfl⟩ : ∃ n, fuel = n + 1 := ⟨fuel - 1, by omega⟩
  cases hl : F.at' (.kids p) with
  | nil =>
    rw [hl] at hh
    replace hh : V 16 p = 0 := hh
    unfold Pool.forwards Pool.nextChild
    rw [s.child hp, Out.ok_bind, if_pos rfl, hh, if_pos (by simp)]
    rfl
  | cons a l =>
    rw [hl] at hh hr hn hm hf
    have ha := hm a (by simp)
    have ha0 := s.lt ha
    have hh : V 16 p = a := hh
    have := forwards_from s hp hh l a n hr hm (List.nodup_cons.1 hn).1 (by simp at hf; omega)
    unfold Pool.forwards Pool.nextChild
    rw [s.child hp, Out.ok_bind, if_pos rfl, hh, if_neg (by omega), s.bwe hp, Out.ok_bind]
    simp only [Out.pure_eq, Out.ok_bind, this]
    rfl

theorem enum_backwards {P : Pool} {F : Forest} {els V fl} (s : Sees P els V fl) (r : Lists F els V fl) {p : Nat} (hp : p ∈ els) {fuel : Nat} (hf : (F.at' (.kids p)).length < fuel) :
    P.backwards p fuel 0 = .ok ((F.at' (.kids p)).reverse.map Int.ofNat) := by
  have hh := r.head p hp 16 (Or.inl rfl)
  replace hh : V 16 p = (F.at' (.kids p)).headD 0 := hh
  have hr := r.ring (.kids p)
  have hn := r.nodup (.kids p)
  have hm : ∀ x ∈ F.at' (.kids p), x ∈ els := fun x hx => (r.mem x).1 ⟨_, hx⟩
  obtain ⟨n, rfl⟩ : ∃ n, fuel = n + 1 := ⟨fuel - 1, by omega⟩
  cases hl : F.at' (.kids p) with
  | nil =>
    rw [hl] at hh
    replace hh : V 16 p = 0 := hh
    unfold Pool.backwards Pool.prevChild
    rw [s.child hp, Out.ok_bind, if_pos rfl, hh, if_pos (by simp)]
    rfl
  | cons a l =>
    rw [hl] at hh hr hn hm hf
    have ha := hm a (by simp)
    have ha0 := s.lt ha
    have hh : V 16 p = a := hh
    obtain ⟨i, hi⟩ := Ring_last hr
    obtain ⟨hL, -, -⟩ := (Circle_iff hi).1 hr
    have hz := hm _ (last_mem hi)
    have hrev : (V 12 a :: i.reverse).reverse = a :: l := by rw [List.reverse_cons, List.reverse_reverse, hi]
    have hrev' : V 12 a :: i.reverse = (a :: l).reverse := by rw [← hrev, List.reverse_reverse]
    have := backwards_from s hp hh i.reverse (V 12 a) n (by rw [List.reverse_reverse, ← hi]; exact hL) (fun x hx => hm x (by rw [← List.mem_reverse, ← hrev']; exact hx))
      (by simp only [hrev', List.getLast_reverse]; rfl)
      (by
        intro x hx
        rw [hrev', List.reverse_cons, List.dropLast_concat, List.mem_reverse] at hx
        exact ne_of_mem_of_not_mem' hx (List.nodup_cons.1 hn).1)
      (by have := congrArg List.length hi; simp at this hf ⊢; omega)
    unfold Pool.backwards Pool.prevChild
    rw [s.child hp, Out.ok_bind, if_pos rfl, hh, if_neg (by omega), s.bwe hp, Out.ok_bind, s.pv ha, Out.ok_bind, s.bwe hp, Out.ok_bind]
    simp only [Out.pure_eq, Out.ok_bind, this]
    rw [← hrev']
    rfl

theorem enum_list {P : Pool} {F : Forest} {els V fl} (s : Sees P els V fl) (r : Lists F els V fl) {p : Nat} (hp : p ∈ els) {k : Nat} (hk : k = 16 ∨ k = 20) {fuel : Nat}
    (hf : (F.at' (lst k p)).length < fuel) : P.listAt p k fuel = .ok ((F.at' (lst k p)).map Int.ofNat) := by
  have hh := r.head p hp k hk
  have hr := r.ring (lst k p)
  have hn := r.nodup (lst k p)
  have hm : ∀ x ∈ F.at' (lst k p), x ∈ els := fun x hx => (r.mem x).1 ⟨_, hx⟩
  have hk' : IsPtr k := by unfold IsPtr; omega
  unfold Pool.listAt
  rw [s.get hp hk' _ rfl, Out.ok_bind]
  cases hl : F.at' (lst k p) with
  | nil => rw [hl] at hh; replace hh : V k p = 0 := hh; rw [hh, if_pos (by simp)]; rfl
  | cons a l =>
    rw [hl] at hh hr hn hm hf
    have ha := hm a (by simp)
    have ha0 := s.lt ha
    have hh : V k p = a := hh
    rw [hh, if_neg (by omega), s.bwe hp, Out.ok_bind]
    exact ringLoop_from s hp l a fuel hr hm (List.nodup_cons.1 hn).1 (by simp at hf; omega)

/-! ### the property -/

/-- C36: after any history of a pool in which elements are made and detached elements (or circles of them) are joined, added to
elements and inserted in front of elements that are in a list, elements are removed and replaced, enumerating the children of any element forwards gives exactly the list that the same
operations on lists give, enumerating them backwards gives its reverse, and the attributes are enumerated in their order. (`fuel` bounds
the number of steps in the model; any larger number gives the same.) Replacing the only element of a list is excluded, see
`C36_replace_single_false`. -/
theorem C36_lists_partial (E : Env) (maxSize : Nat) (h1 : 0x4000 ≤ maxSize) (h2 : maxSize < 2147483648) (P : Pool) (F : Forest) (h : Hist E maxSize P F) (p : Nat) (hp : F.Elem p)
    (fuel : Nat) (hf : (F.at' (.kids p)).length < fuel) (hf' : (F.at' (.attrs p)).length < fuel) :
    P.forwards p fuel 0 = .ok ((F.at' (.kids p)).map Int.ofNat) ∧ P.backwards p fuel 0 = .ok ((F.at' (.kids p)).reverse.map Int.ofNat) ∧
    P.listAt p 16 fuel = .ok ((F.at' (.kids p)).map Int.ofNat) ∧ P.listAt p 20 fuel = .ok ((F.at' (.attrs p)).map Int.ofNat) := by
  obtain ⟨els, V, fl, s, r⟩ := hist_rep h1 h2 h
  have hpe := (r.mem p).1 hp
  exact ⟨enum_forwards s r hpe hf, enum_backwards s r hpe hf, enum_list s r hpe (Or.inl rfl) hf, enum_list s r hpe (Or.inr rfl) hf'⟩

/-- C36: each of the operations succeeds. -/
theorem C36_succeeds (E : Env) (maxSize : Nat) (h1 : 0x4000 ≤ maxSize) (h2 : maxSize < 2147483648) (P : Pool) (F G : Forest) (h : Hist E maxSize P F) (op : ListOp) (hs : Step F op G) :
    ∃ Q, op.run P = .ok Q ∧ Hist E maxSize Q G := by
  obtain ⟨els, V, fl, s, r⟩ := hist_rep h1 h2 h
  obtain ⟨Q, -, -, hq, -⟩ := step_spec s r hs
  exact ⟨Q, hq, .step h hs hq⟩

/-- C36: no element is in two places, or twice in one -/
theorem C36_once (E : Env) (maxSize : Nat) (h1 : 0x4000 ≤ maxSize) (h2 : maxSize < 2147483648) (P : Pool) (F : Forest) (h : Hist E maxSize P F) :
    (∀ q, (F.at' q).Nodup) ∧ ∀ q r e, e ∈ F.at' q → e ∈ F.at' r → q = r := by
  obtain ⟨els, V, fl, s, r⟩ := hist_rep h1 h2 h
  exact ⟨r.nodup, r.disj⟩

/-! ### a history, and the replacement of an only child -/

/-- the pool of a result -/
def poolOf : Out (Pool × Option Nat) → Pool
  | .ok (P, _) => P
  | _ => Pool.empty 0
def poolOf' : Out Pool → Pool
  | .ok P => P
  | _ => Pool.empty 0

theorem poolOf_eq {r : Out (Pool × Option Nat)} {o : Nat} (h : (match r with | .ok (_, some x) => x == o | _ => false) = true) : r = .ok (poolOf r, some o) := by
  match r, h with
  | .ok (P, some x), h => rw [show x = o by simpa using h]; rfl

theorem poolOf'_eq {r : Out Pool} (h : (match r with | .ok _ => true | _ => false) = true) : r = .ok (poolOf' r) := by
  match r, h with
  | .ok P, _ => rfl

/-- any environment in which the file can grow -/
def demoEnv : Env := ⟨true, fun _ => true⟩
/-- four tags -/
def demo1 : Pool := poolOf ((Pool.empty 0x8000).make demoEnv 0 XBT.NULL 0 1 0 [])
def demo2 : Pool := poolOf (demo1.make demoEnv 1 XBT.INT32 0 1 0 (le32 5))
def demo3 : Pool := poolOf (demo2.make demoEnv 1 XBT.INT32 0 1 0 (le32 6))
def demo4 : Pool := poolOf (demo3.make demoEnv 2 XBT.NULL 0 1 0 [])
/-- the second is added to the first -/
def demo5 : Pool := poolOf' (demo4.add 92 (some 116))

/-- the lists of `demo4` and `demo5` -/
def demoMade (F : Forest) (k o : Nat) : Forest := { F.put (.loose k) [o] with tag := fun e => if e = o then true else F.tag e }
def demoF4 : Forest := demoMade (demoMade (demoMade (demoMade ⟨fun _ => [], fun _ => false⟩ 0 92) 1 116) 2 144) 3 172
def demoF5 : Forest := (demoF4.put (.kids 92) [116]).put (.loose 1) []

theorem demo_hist4 : Hist demoEnv 0x8000 demo4 demoF4 := by
  have m1 : (Pool.empty 0x8000).make demoEnv 0 XBT.NULL 0 (tagFlag true) 0 [] = .ok (demo1, some 92) := poolOf_eq (by decide +kernel)
  have m2 : demo1.make demoEnv 1 XBT.INT32 0 (tagFlag true) 0 (le32 5) = .ok (demo2, some 116) := poolOf_eq (by decide +kernel)
  have m3 : demo2.make demoEnv 1 XBT.INT32 0 (tagFlag true) 0 (le32 6) = .ok (demo3, some 144) := poolOf_eq (by decide +kernel)
  have m4 : demo3.make demoEnv 2 XBT.NULL 0 (tagFlag true) 0 [] = .ok (demo4, some 172) := poolOf_eq (by decide +kernel)
  exact .made (k := 3) (.made (k := 2) (.made (k := 1) (.made (k := 0) .start m1 rfl) m2 rfl) m3 rfl) m4 rfl

theorem demo_hist5 : Hist demoEnv 0x8000 demo5 demoF5 := by
  have m : (ListOp.add 92 116).run demo4 = .ok demo5 := poolOf'_eq (by decide +kernel)
  exact .step demo_hist4 (Step.add (F := demoF4) (p := 92) (t := 116) (k := 1) ⟨.loose 0, by decide⟩ (by decide)) m

/-- a history with circles, removal and replacement: 116 and 144 are joined and added to 92, 116 is replaced by 172, 172 is removed
and 116 is added again -/
example : ∃ P F, Hist demoEnv 0x8000 P F ∧ F.Elem 92 ∧ F.at' (.kids 92) = [144, 116] ∧ P.forwards 92 5 0 = .ok [144, 116] ∧ P.backwards 92 5 0 = .ok [116, 144] := by
  obtain ⟨P1, -, h1⟩ := C36_succeeds demoEnv 0x8000 (by decide) (by decide) _ _ _ demo_hist4 _ (Step.join (a := 116) (b := 144) (j := 1) (k := 2) (by decide) (by decide) (by decide) rfl)
  obtain ⟨P2, -, h2⟩ := C36_succeeds demoEnv 0x8000 (by decide) (by decide) _ _ _ h1 _ (Step.add (p := 92) (t := 116) (k := 1) ⟨.loose 0, by decide⟩ (by decide))
  obtain ⟨P3, -, h3⟩ := C36_succeeds demoEnv 0x8000 (by decide) (by decide) _ _ _ h2 _ (Step.replace (p := 92) (old := 116) (new := 172) (k := 3) (by decide) (by decide) (by decide) rfl)
  obtain ⟨P4, -, h4⟩ := C36_succeeds demoEnv 0x8000 (by decide) (by decide) _ _ _ h3 _ (Step.remove (p := 92) (t := 172) (k := 7) (by decide) (by decide))
  obtain ⟨P5, -, h5⟩ := C36_succeeds demoEnv 0x8000 (by decide) (by decide) _ _ _ h4 _ (Step.add (p := 92) (t := 116) (k := 3) ⟨.loose 0, by decide⟩ (by decide))
  have := C36_lists_partial demoEnv 0x8000 (by decide) (by decide) _ _ h5 92 ⟨.loose 0, by decide⟩ 5 (by decide) (by decide)
  exact ⟨P5, _, h5, ⟨.loose 0, by decide⟩, by decide, this.1, this.2.1⟩

/-- insertion in a list: 116 and 144 are children of 92; 172 is joined to 144 and comes in front of it; without that 172, joined to the
first child, comes to the end -/
example : ∃ P F P' F', Hist demoEnv 0x8000 P F ∧ F.at' (.kids 92) = [116, 172, 144] ∧ P.forwards 92 5 0 = .ok [116, 172, 144] ∧ P.backwards 92 5 0 = .ok [144, 172, 116] ∧
    Hist demoEnv 0x8000 P' F' ∧ F'.at' (.kids 92) = [116, 144, 172] ∧ P'.forwards 92 5 0 = .ok [116, 144, 172] := by
  obtain ⟨P1, -, h1⟩ := C36_succeeds demoEnv 0x8000 (by decide) (by decide) _ _ _ demo_hist5 _ (Step.add (p := 92) (t := 144) (k := 2) ⟨.loose 0, by decide⟩ (by decide))
  obtain ⟨P2, -, h2⟩ := C36_succeeds demoEnv 0x8000 (by decide) (by decide) _ _ _ h1 _ (Step.splice (p := 92) (a := 144) (b := 172) (k := 3) (by decide) (by decide) rfl)
  obtain ⟨P3, -, h3⟩ := C36_succeeds demoEnv 0x8000 (by decide) (by decide) _ _ _ h1 _ (Step.splice (p := 92) (a := 116) (b := 172) (k := 3) (by decide) (by decide) rfl)
  have r2 := C36_lists_partial demoEnv 0x8000 (by decide) (by decide) _ _ h2 92 ⟨.loose 0, by decide⟩ 5 (by decide) (by decide)
  have r3 := C36_lists_partial demoEnv 0x8000 (by decide) (by decide) _ _ h3 92 ⟨.loose 0, by decide⟩ 5 (by decide) (by decide)
  exact ⟨P2, _, P3, _, h2, by decide, r2.1, r2.2.1, h3, by decide, r3.1⟩

/-- the pool after the only child, 116, of 92 has been replaced by 144 -/
def demo6 : Pool := poolOf' (demo5.replace 92 116 144)

/-- C36 is false when the only child of an element is replaced: the call succeeds, but the new child is linked to the old one, and
enumerating the children never ends. -/
theorem C36_replace_single_false : Hist demoEnv 0x8000 demo5 demoF5 ∧ demoF5.at' (.kids 92) = [116] ∧ demoF5.at' (.loose 2) = [144] ∧ demoF5.tag 116 = demoF5.tag 144 ∧
    demo5.replace 92 116 144 = .ok demo6 ∧ ∀ fuel, demo6.forwards 92 fuel 0 = .ub := by
  refine ⟨demo_hist5, by decide, by decide, by decide, poolOf'_eq (by decide +kernel), ?_⟩
  have h0 : demo6.nextChild 92 0 = .ok (some 144, 144) := by decide +kernel
  have h1 : demo6.nextChild 92 144 = .ok (some 116, 116) := by decide +kernel
  have h2 : demo6.nextChild 92 116 = .ok (some 116, 116) := by decide +kernel
  have loop : ∀ fuel, demo6.forwards 92 fuel 116 = .ub := by
    intro fuel
    induction fuel with
    | zero => rfl
    | succ n ih =>
      unfold Pool.forwards
      simp only [h2, Out.ok_bind, ih, Out.ub_bind]
  intro fuel
  cases fuel with
  | zero => rfl
  | succ n =>
    unfold Pool.forwards
    simp only [h0, Out.ok_bind]
    cases n with
    | zero => rfl
    | succ n =>
      unfold Pool.forwards
      simp only [h1, Out.ok_bind, loop, Out.ub_bind]

end BX
