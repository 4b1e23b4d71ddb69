import Verif.Lemmas.DictClear
import Verif.Lemmas.RingRep
import Verif.Lemmas.Open
import Verif.Lemmas.CrashMake
import Verif.Lemmas.DictAlter
import Verif.Spec.Session
/-
The invariant of the histories of a writable document.
-/
namespace BX
open XBT Spec

/-- an element in memory, except for its links -/
structure ElemAt (P : Pool) (e : Nat) (id : Int) (t : XBT) (v : List UInt8) : Prop where
  is16 : Is16 id
  id : Has P.mem (e + 4) (leN 2 (toU 16 id))
  ty : Has P.mem (e + 7) [t.code]
  val : Has P.mem (e + 24) v
  hi : e + 24 + v.length ≤ P.alloc
  pad : e + 24 + aa v.length ≤ P.alloc

theorem ElemAt.frame {P Q : Pool} {e : Nat} {id : Int} {t : XBT} {v : List UInt8} (h : ElemAt P e id t v) (ha : P.alloc ≤ Q.alloc)
    (hm : ∀ i, (e + 4 ≤ i ∧ i < e + 6) ∨ i = e + 7 ∨ (e + 24 ≤ i ∧ i < e + 24 + v.length) → Q.mem i = P.mem i) : ElemAt Q e id t v := by
  refine ⟨h.is16, h.id.congr fun i i1 i2 => hm i ?_, h.ty.congr fun i i1 i2 => hm i ?_, h.val.congr fun i i1 i2 => hm i ?_, Nat.le_trans h.hi ha, Nat.le_trans h.pad ha⟩
  · rw [leN_length] at i2; omega
  · simp only [List.length_cons, List.length_nil] at i2; omega
  · omega

/-- the parts of the memory of a pool -/
inductive Part where
  | elem (e : Nat)
  | names (b : Bool)
  | index (b : Bool)

/-- the bytes of a part -/
def inPart (P : Pool) (D : Doc) : Part → Nat → Prop
  | .elem e, i => D.forest.Elem e ∧ e ≤ i ∧ i < e + 24 + aa (D.val e).length
  | .names b, i => inNames (P.tab b) (D.syms b) i
  | .index b, i => inIndex (P.tab b) (D.syms b) i

/-- the pool holds the document -/
structure Keeps (P : Pool) (D : Doc) (els : List Nat) (V : Nat → Nat → Nat) (fl : Nat → UInt8) : Prop where
  sees : Sees P els V fl
  lists : Lists D.forest els V fl
  tabs : ∀ b, TabOk P (P.tab b) (D.syms b)
  rdy : ∀ b, D.ready b = true → D.syms b ≠ [] → (P.tab b).index ≠ 0
  elem : ∀ e ∈ els, ElemAt P e (D.id e) (D.type e) (D.val e)
  apart : ∀ k k' i, inPart P D k i → inPart P D k' i → k = k'
  root : P.root = D.root

theorem Keeps.lt {P : Pool} {D : Doc} {els V fl} (h : Keeps P D els V fl) {k : Part} {i : Nat} (hi : inPart P D k i) : i < P.alloc := by
  cases k with
  | elem e =>
    obtain ⟨h1, h2, h3⟩ := hi
    have := (h.elem e ((h.lists.mem e).1 h1)).pad
    omega
  | names b => exact ((h.tabs b).lt (Or.inl hi)).2
  | index b => exact ((h.tabs b).lt (Or.inr hi)).2

/-- one part grows into fresh memory -/
theorem Keeps.fresh {P Q : Pool} {D D' : Doc} {els V fl} (h : Keeps P D els V fl) (k0 : Part) (hp : ∀ k i, inPart Q D' k i → inPart P D k i ∨ (k = k0 ∧ P.alloc ≤ i)) :
    ∀ k k' i, inPart Q D' k i → inPart Q D' k' i → k = k' := by
  intro k k' i h1 h2
  rcases hp k i h1 with h1 | ⟨e1, h1⟩ <;> rcases hp k' i h2 with h2 | ⟨e2, h2⟩
  · exact h.apart k k' i h1 h2
  · have := h.lt h1; omega
  · have := h.lt h2; omega
  · rw [e1, e2]

theorem Got.tab {P Q : Pool} (g : Got P Q) (b : Bool) : Q.tab b = P.tab b := by unfold Pool.tab; rw [g.same.2.1, g.same.2.2]

/-- memory has been requested -/
theorem Keeps.got {P Q : Pool} {D : Doc} {els V fl} (h : Keeps P D els V fl) (g : Got P Q) : Keeps Q D els V fl := by
  refine ⟨h.sees.got g, h.lists, fun b => ?_, fun b => ?_, fun e he => ?_, ?_, by rw [g.same.1]; exact h.root⟩
  · rw [g.tab]; exact (h.tabs b).frame g.mono fun i hi => g.keep i ((h.tabs b).lt hi).2
  · rw [g.tab]; exact h.rdy b
  · have hs := h.elem e he
    have := hs.hi
    exact hs.frame g.mono fun i hi => g.keep i (by omega)
  · intro k k' i h1 h2
    refine h.apart k k' i ?_ ?_
    · cases k <;> simpa only [inPart, g.tab] using h1
    · cases k' <;> simpa only [inPart, g.tab] using h2

/-- an element has been made -/
theorem Keeps.plus {P Q : Pool} {D : Doc} {els V fl} (h : Keeps P D els V fl) (g : Got P Q) {id : Int} {t : XBT} {b : Bool} {o k : Nat} {v : List UInt8} (b1 : P.alloc ≤ o) (b0 : o % 4 = 0)
    (b4 : o + 24 + v.length ≤ Q.alloc) (b5 : Has Q.mem o (elemBytes o id t (tagFlag b))) (b6 : Has Q.mem (o + 24) v) (hid : Is16 id) (hk : D.forest.at' (.loose k) = []) :
    Keeps Q (D.plus k o b id t v) (o :: els) (madeV V o) (fun y => if y = o then tagFlag b else fl y) := by
  obtain ⟨s, hno⟩ := h.sees.plus g b1 (by omega) b5
  have hl := step_made h.lists hno hk (tagFlag_bit b)
  have hq := h.got g
  obtain ⟨c1, c2, c3, c4, c5⟩ := elemBytes_has b5
  have hne : ∀ e ∈ els, e ≠ o := fun e he => ne_of_mem_of_not_mem' he hno
  refine ⟨s, hl, hq.tabs, hq.rdy, fun e he => ?_, ?_, hq.root⟩
  · show ElemAt Q e (if e = o then id else D.id e) (if e = o then t else D.type e) (if e = o then v else D.val e)
    rcases List.mem_cons.1 he with rfl | he
    · rw [if_pos rfl, if_pos rfl, if_pos rfl]
      exact ⟨hid, c2, c4, b6, b4, by have := g.ok.al; unfold aa; omega⟩
    · rw [if_neg (hne e he), if_neg (hne e he), if_neg (hne e he)]
      exact hq.elem e he
  · refine h.fresh (.elem o) ?_
    intro x i hi
    cases x with
    | elem e =>
      obtain ⟨i1, i2, i3⟩ := hi
      have he : e ∈ o :: els := (hl.mem e).1 i1
      rcases List.mem_cons.1 he with rfl | he
      · exact Or.inr ⟨rfl, by omega⟩
      · refine Or.inl ⟨(h.lists.mem e).2 he, i2, ?_⟩
        have : (D.plus k o b id t v).val e = D.val e := if_neg (hne e he)
        rw [this] at i3; exact i3
    | names c =>
      left
      have : inNames (Q.tab c) (D.syms c) i := hi
      rw [g.tab] at this; exact this
    | index c =>
      left
      have : inIndex (Q.tab c) (D.syms c) i := hi
      rw [g.tab] at this; exact this

theorem sizeField_length (t : XBT) (n : Int) : (sizeField t n).length = (sizeField t 0).length := by
  unfold sizeField; split <;> simp

theorem Keeps.made {E : Env} {P Q : Pool} {D : Doc} {els V fl} (h : Keeps P D els V fl) {id : Int} {t : XBT} {size : Nat} {b : Bool} {bs : List UInt8} {o k : Nat} (hid : Is16 id)
    (hl : (sizeField t 0).length + bs.length = (size2 t size).toNat) (hm : P.make E id t size (tagFlag b) (sizeField t 0).length bs = .ok (Q, some o)) (hk : D.forest.at' (.loose k) = []) :
    Keeps Q (D.plus k o b id t (sizeField t (size2 t size - 4) ++ bs)) (o :: els) (madeV V o) (fun y => if y = o then tagFlag b else fl y) := by
  obtain ⟨g, g2⟩ := make_spec h.sees.ok hm
  obtain ⟨b0, b1, b2, b3, b4, b5, b6, b7⟩ := g2 o rfl
  have hsl := sizeField_length t (size2 t size - 4)
  refine h.plus g b1 b2 (by rw [List.length_append, hsl, hl]; exact b4) b5 ?_ hid hk
  rw [Has.append, hsl]
  refine ⟨?_, b6⟩
  unfold sizeField at b7 ⊢
  split
  · rename_i hv
    exact b7 hv (by rw [if_pos hv]; simp)
  · rfl

theorem makeData_spec {P Q : Pool} (hP : PoolOk P) {id : Int} {t : XBT} {f : UInt8} {bs : List UInt8} {r : Option Nat} (h : P.makeData id t f bs = .ok (Q, r)) :
    Got P Q ∧ ∀ o, r = some o → P.alloc ≤ o ∧ o % 8 = 0 ∧ o + 24 + bs.length ≤ Q.alloc ∧ Has Q.mem o (elemBytes o id t f) ∧ Has Q.mem (o + 24) bs := by
  unfold Pool.makeData at h
  obtain ⟨⟨Q1, r1⟩, h1, h⟩ := Out.bind_eq_ok h
  obtain ⟨a1, a2, a3, a4, a5, a6, a7⟩ := AllocOp.run_spec (E := ⟨true, fun _ => true⟩) (op := .eight (24 + bs.length)) hP h1
  have g1 : Got P Q1 := ⟨a1, a2, a3, a4, a5, a6⟩
  cases r1 with
  | none =>
    simp only [Out.pure_eq, Out.ok.injEq, Prod.mk.injEq] at h
    obtain ⟨rfl, rfl⟩ := h
    exact ⟨g1, by simp⟩
  | some o =>
    simp only at h
    obtain ⟨b1, b2, b3, b4, -⟩ := a7 o rfl
    have b2' : o % 8 = 0 := b2
    have b4' : o + (24 + (bs.length : Int)).toNat ≤ Q1.alloc := b4
    obtain ⟨P1, w1, h⟩ := Out.bind_eq_ok h
    obtain ⟨g1, e1, f1⟩ := g1.wr w1 (by omega)
    obtain ⟨P2, w2, h⟩ := Out.bind_eq_ok h
    obtain ⟨g1, e2, f2⟩ := g1.wr w2 (by omega)
    simp only [Out.pure_eq, Out.ok.injEq, Prod.mk.injEq] at h
    obtain ⟨rfl, rfl⟩ := h
    refine ⟨g1, ?_⟩
    rintro _ ⟨⟩
    obtain ⟨a, ha, -, rfl⟩ := Pool.wr_ok w1
    obtain ⟨a', ha', -, rfl⟩ := Pool.wr_ok w2
    have : a = o := by omega
    subst this
    have : a' = a + 24 := by omega
    subst this
    have hl := elemBytes_length a id t f
    refine ⟨b1, b2', by simp only; omega, ?_, Has.self _ _ _⟩
    exact Has.frame (Has.self _ _ _) (by unfold elemBytes at hl; rw [hl]; omega)

theorem Keeps.copied {P Q : Pool} {D : Doc} {els V fl} (h : Keeps P D els V fl) {id : Int} {t : XBT} {b : Bool} {bs : List UInt8} {o k : Nat} (hid : Is16 id)
    (hm : P.makeData id t (tagFlag b) bs = .ok (Q, some o)) (hk : D.forest.at' (.loose k) = []) :
    Keeps Q (D.plus k o b id t bs) (o :: els) (madeV V o) (fun y => if y = o then tagFlag b else fl y) := by
  obtain ⟨g, g2⟩ := makeData_spec h.sees.ok hm
  obtain ⟨b1, b2, b3, b4, b5⟩ := g2 o rfl
  exact h.plus g b1 (by omega) b3 b4 b5 hid hk

/-- an element is a part -/
theorem Keeps.inElem {P : Pool} {D : Doc} {els V fl} (h : Keeps P D els V fl) {e i : Nat} (he : e ∈ els) (h1 : e ≤ i) (h2 : i < e + 24 + (D.val e).length) : inPart P D (.elem e) i :=
  ⟨(h.lists.mem e).2 he, h1, by unfold aa; omega⟩

/-- only links and flags of elements have changed -/
theorem Keeps.relink {P Q : Pool} {D : Doc} {els V fl V' fl'} (h : Keeps P D els V fl) {G : Forest} (h2 : Sees Q els V' fl') (h3 : Only P Q els) (h4 : Lists G els V' fl') :
    Keeps Q { D with forest := G } els V' fl' := by
  have hrest := h3.rest
  have htab : ∀ b, Q.tab b = P.tab b := fun b => by rw [hrest]; rfl
  have hal : Q.alloc = P.alloc := by rw [hrest]
  have hne : ∀ k i, inPart P D k i → (∀ e, k = .elem e → i < e + 6 ∨ i = e + 7 ∨ e + 24 ≤ i) → Q.mem i = P.mem i := by
    intro k i hi hk
    refine h3.mem i fun e he => ?_
    by_cases hin : e ≤ i ∧ i < e + 24 + (D.val e).length
    · exact hk e (h.apart k (.elem e) i hi (h.inElem he hin.1 hin.2))
    · omega
  refine ⟨h2, h4, fun b => ?_, fun b => ?_, fun e he => ?_, ?_, by rw [hrest]; exact h.root⟩
  · rw [htab]
    refine (h.tabs b).frame (by omega) fun i hi => ?_
    rcases hi with hi | hi
    · exact hne (.names b) i hi (by simp)
    · exact hne (.index b) i hi (by simp)
  · rw [htab]; exact h.rdy b
  · refine (h.elem e he).frame (by omega) fun i hi => hne (.elem e) i (h.inElem he (by omega) ?_) ?_
    · omega
    · intro e' he'
      simp only [Part.elem.injEq] at he'
      omega
  · have hel : ∀ e, G.Elem e ↔ D.forest.Elem e := fun e => by rw [h4.mem, h.lists.mem]
    have hp : ∀ k i, inPart Q { D with forest := G } k i → inPart P D k i := by
      intro k i hi
      cases k with
      | elem e => exact ⟨(hel e).1 hi.1, hi.2⟩
      | names b => have hi : inNames (Q.tab b) (D.syms b) i := hi; rw [htab] at hi; exact hi
      | index b => have hi : inIndex (Q.tab b) (D.syms b) i := hi; rw [htab] at hi; exact hi
    intro k k' i i1 i2
    exact h.apart k k' i (hp k i i1) (hp k' i i2)

/-- a call on elements leaves the other parts -/
theorem Keeps.step {P Q : Pool} {D : Doc} {els V fl} (h : Keeps P D els V fl) {G : Forest} {op : ListOp} (hs : Step D.forest op G) (hr : op.run P = .ok Q) :
    ∃ V' fl', Keeps Q { D with forest := G } els V' fl' := by
  obtain ⟨Q', V', fl', h1, h2, h3, h4⟩ := step_spec h.sees h.lists hs
  rw [hr] at h1
  cases h1
  exact ⟨V', fl', h.relink h2 h3 h4⟩

theorem flag_or4 (x : UInt8) : (x ||| 4) &&& 1 = x &&& 1 := by
  apply UInt8.toNat_inj.1
  rw [UInt8.toNat_and, UInt8.toNat_or, UInt8.toNat_and, Nat.and_or_distrib_right]
  exact Nat.or_zero _

/-- an element is marked as written -/
theorem Keeps.mark {P Q : Pool} {D : Doc} {els V fl} (h : Keeps P D els V fl) {e : Nat} (he : e ∈ els) (hr : P.setWritten e = .ok Q) :
    Keeps Q D els V (fun y => if y = e then fl e ||| 4 else fl y) := by
  unfold Pool.setWritten at hr
  rw [h.sees.flags he, Out.ok_bind] at hr
  obtain ⟨Q', h1, h2, h3⟩ := h.sees.setFlags he (fl e ||| 4) _ rfl
  rw [hr] at h1
  cases h1
  refine h.relink (G := D.forest) h2 h3 ⟨h.lists.mem, h.lists.nodup, h.lists.disj, h.lists.ring, h.lists.head, h.lists.own, fun x hx => ?_, h.lists.kids, h.lists.attrs, h.lists.loose⟩
  rw [← h.lists.bit x hx]
  by_cases hxe : x = e
  · simp only [hxe, if_true, flag_or4]
  · simp only [if_neg hxe]

/-- memory outside of links, and the allocator, are as before -/
theorem Sees.frame {P Q : Pool} {els V fl} (h : Sees P els V fl) (ok : PoolOk Q) (ha : P.alloc ≤ Q.alloc) (hm : Q.mmapSize = P.mmapSize) (hk : ∀ e ∈ els, ∀ i, e ≤ i → i < e + 24 → Q.mem i = P.mem i) :
    Sees Q els V fl := by
  refine ⟨ok, by rw [hm]; exact h.small, fun e he => ?_, h.apart, fun e he => ?_, fun e he => ?_, fun e he k hk' => ?_, h.bound⟩
  · have := h.range e he; omega
  · exact (h.off e he).congr fun i i1 i2 => hk e he i i1 (by rw [le32_length] at i2; omega)
  · exact (h.flag e he).congr fun i i1 i2 => hk e he i (by omega) (by simp only [List.length_singleton] at i2; omega)
  · have hp := hk'
    unfold IsPtr at hp
    exact (h.ptr e he k hk').congr fun i i1 i2 => hk e he i (by omega) (by rw [le32_length] at i2; omega)

/-- a value is changed in place -/
theorem Keeps.store {P Q : Pool} {D : Doc} {els V fl} (h : Keeps P D els V fl) {e : Nat} {bs : List UInt8} (he : D.forest.Elem e) (hl : bs.length ≤ aa (D.val e).length)
    (hw : P.wr (e + 24) bs = .ok Q) : Keeps Q (D.store e bs) els V fl := by
  obtain ⟨a, ha, h1, rfl⟩ := Pool.wr_ok hw
  have : a = e + 24 := by omega
  subst this
  have hee := (h.lists.mem e).1 he
  have hlen : ∀ x, aa ((D.store e bs).val x).length = aa (D.val x).length := by
    intro x
    show aa (if x = e then bs ++ (D.val e).drop bs.length else D.val x).length = _
    split
    · rename_i hx; rw [hx]; simp only [List.length_append, List.length_drop]; unfold aa at *; omega
    · rfl
  have hne : ∀ i, i < e + 24 ∨ e + 24 + bs.length ≤ i → memPut P.mem (e + 24) bs i = P.mem i := fun i hi => memPut_frame _ _ _ _ hi
  have hpart : ∀ k i, inPart P D k i → (∀ x, k = .elem x → x ≠ e ∨ i < e + 24 ∨ e + 24 + bs.length ≤ i) → memPut P.mem (e + 24) bs i = P.mem i := by
    intro k i hi hk
    refine hne i ?_
    by_cases hin : e + 24 ≤ i ∧ i < e + 24 + bs.length
    · have := h.apart k (.elem e) i hi ⟨he, by omega, by omega⟩
      have := hk e this
      omega
    · omega
  refine ⟨h.sees.frame (h.sees.ok.mem _) (Nat.le_refl _) rfl fun x hx i i1 i2 => ?_, h.lists, fun b => ?_, h.rdy, fun x hx => ?_, ?_, h.root⟩
  · refine hpart (.elem x) i (h.inElem hx i1 (by omega)) fun y hy => ?_
    simp only [Part.elem.injEq] at hy
    by_cases hxe : y = e
    · omega
    · exact Or.inl hxe
  · refine (h.tabs b).frame (Nat.le_refl _) fun i hi => ?_
    rcases hi with hi | hi
    · exact hpart (.names b) i hi (by simp)
    · exact hpart (.index b) i hi (by simp)
  · have hs := h.elem x hx
    by_cases hxe : x = e
    · subst hxe
      have hv : (D.store x bs).val x = bs ++ (D.val x).drop bs.length := if_pos rfl
      rw [hv]
      refine ⟨hs.is16, hs.id.congr fun i i1 i2 => hne i ?_, hs.ty.congr fun i i1 i2 => hne i ?_, ?_, ?_, ?_⟩
      · rw [leN_length] at i2; omega
      · simp only [List.length_cons, List.length_nil] at i2; omega
      · have hv := hs.val
        rw [Has.append]
        refine ⟨Has.self _ _ _, ?_⟩
        by_cases hb : bs.length ≤ (D.val x).length
        · rw [← List.take_append_drop bs.length (D.val x), Has.append] at hv
          have hv2 := hv.2
          rw [List.length_take, Nat.min_eq_left hb] at hv2
          exact hv2.congr fun i i1 _ => hne i (Or.inr i1)
        · rw [List.drop_eq_nil_of_le (by omega)]; exact rfl
      · have := hs.pad
        have := hs.hi
        show x + 24 + (bs ++ (D.val x).drop bs.length).length ≤ P.alloc
        simp only [List.length_append, List.length_drop]; omega
      · have h' := hlen x
        rw [hv] at h'
        rw [h']; exact hs.pad
    · have hv : (D.store e bs).val x = D.val x := if_neg hxe
      rw [hv]
      refine hs.frame (Nat.le_refl _) fun i hi => hpart (.elem x) i (h.inElem hx (by omega) (by omega)) fun y hy => ?_
      simp only [Part.elem.injEq] at hy
      exact Or.inl (hy ▸ hxe)
  · have hp : ∀ k i, inPart { P with mem := memPut P.mem (e + 24) bs } (D.store e bs) k i → inPart P D k i := by
      intro k i hi
      cases k with
      | elem x => exact ⟨hi.1, hi.2.1, by have := hi.2.2; rw [hlen] at this; exact this⟩
      | names b => exact hi
      | index b => exact hi
    intro k k' i i1 i2
    exact h.apart k k' i (hp k i i1) (hp k' i i2)

theorem setRoot_spec {P Q : Pool} {D : Doc} {els V fl} (h : Keeps P D els V fl) {e : Nat} (he : D.forest.Elem e) (hr : P.setRoot (some e) = .ok Q) :
    Q = { P with root := if D.root = 0 then e else D.root } := by
  have hee := (h.lists.mem e).1 he
  have hrg := h.sees.range e hee
  unfold Pool.setRoot at hr
  simp only at hr
  by_cases h0 : P.root ≠ 0
  · rw [if_pos h0] at hr
    simp only [Out.pure_eq, Out.ok.injEq] at hr
    rw [if_neg (by rw [← h.root]; exact h0), ← h.root, ← hr]
  · rw [if_neg h0, h.sees.offset hee, Out.ok_bind, if_pos ⟨by omega, by omega⟩] at hr
    simp only [Out.pure_eq, Out.ok.injEq, Int.toNat_natCast] at hr
    rw [if_pos (by rw [← h.root]; omega), ← hr]

theorem Keeps.rooted {P : Pool} {D : Doc} {els V fl} (h : Keeps P D els V fl) (r : Nat) : Keeps { P with root := r } { D with root := r } els V fl := by
  have ok : PoolOk { P with root := r } := by obtain ⟨a, b, c, d, e, f⟩ := h.sees.ok; exact ⟨a, b, c, d, e, f⟩
  refine ⟨h.sees.frame ok (Nat.le_refl _) rfl fun _ _ _ _ _ => rfl, h.lists, fun b => ?_, h.rdy, fun e he => (h.elem e he).frame (Nat.le_refl _) fun _ _ => rfl, ?_, rfl⟩
  · exact (h.tabs b).frame (Q := { P with root := r }) (Nat.le_refl _) fun _ _ => rfl
  · have hp : ∀ k i, inPart { P with root := r } { D with root := r } k i → inPart P D k i := by
      intro k i hi
      cases k <;> exact hi
    intro k k' i i1 i2
    exact h.apart k k' i (hp k i i1) (hp k' i i2)

theorem setSyms_self (D : Doc) (b : Bool) (l : List Sym) (r : Bool) : (D.setSyms b l r).syms b = l ∧ (D.setSyms b l r).ready b = r := ⟨if_pos rfl, if_pos rfl⟩
theorem setSyms_other (D : Doc) {b c : Bool} (l : List Sym) (r : Bool) (h : c ≠ b) : (D.setSyms b l r).syms c = D.syms c ∧ (D.setSyms b l r).ready c = D.ready c := ⟨if_neg h, if_neg h⟩

/-- a symbol table has changed -/
theorem Keeps.tab {P Q : Pool} {D : Doc} {els V fl} (h : Keeps P D els V fl) {b : Bool} {l' : List Sym} {r : Bool} (s : RegStep P Q b (D.syms b) l') (hr : r = true → l' ≠ [] → (Q.tab b).index ≠ 0) :
    Keeps Q (D.setSyms b l' r) els V fl := by
  have hkeep : ∀ k i, inPart P D k i → k ≠ .names b → Q.mem i = P.mem i := fun k i hi hk => s.keep i (h.lt hi) fun hc => hk (h.apart k (.names b) i hi hc)
  refine ⟨h.sees.frame s.ok s.mono s.map fun e he i i1 i2 => hkeep (.elem e) i (h.inElem he i1 (by omega)) (by simp), h.lists, fun c => ?_, fun c => ?_, fun e he => ?_, ?_, by rw [s.root]; exact h.root⟩
  · by_cases hc : c = b
    · subst hc; rw [(setSyms_self D c l' r).1]; exact s.tab
    · rw [(setSyms_other D l' r hc).1, s.other c hc]
      refine (h.tabs c).frame s.mono fun i hi => ?_
      rcases hi with hi | hi
      · exact hkeep (.names c) i hi (by simpa using hc)
      · exact hkeep (.index c) i hi (by simp)
  · by_cases hc : c = b
    · subst hc; rw [(setSyms_self D c l' r).1, (setSyms_self D c l' r).2]; exact hr
    · rw [(setSyms_other D l' r hc).1, (setSyms_other D l' r hc).2, s.other c hc]; exact h.rdy c
  · exact (h.elem e he).frame s.mono fun i hi => hkeep (.elem e) i (h.inElem he (by omega) (by omega)) (by simp)
  · refine h.fresh (.names b) fun k i hi => ?_
    cases k with
    | elem e => exact Or.inl hi
    | names c =>
      have hi : inNames (Q.tab c) ((D.setSyms b l' r).syms c) i := hi
      by_cases hc : c = b
      · subst hc
        rw [(setSyms_self D c l' r).1] at hi
        rcases s.names i hi with hi | hi
        · exact Or.inl hi
        · exact Or.inr ⟨rfl, hi⟩
      · rw [(setSyms_other D l' r hc).1, s.other c hc] at hi
        exact Or.inl hi
    | index c =>
      have hi : inIndex (Q.tab c) ((D.setSyms b l' r).syms c) i := hi
      by_cases hc : c = b
      · subst hc
        rw [(setSyms_self D c l' r).1] at hi
        exact Or.inl (s.index i hi)
      · rw [(setSyms_other D l' r hc).1, s.other c hc] at hi
        exact Or.inl hi

/-- an index has been made -/
theorem Keeps.index {P Q : Pool} {D : Doc} {els V fl} (h : Keeps P D els V fl) {b : Bool} {r : Bool} (hm : P.makeTable b = .ok (Q, r)) (h0 : (P.tab b).index = 0) :
    Keeps Q { D with ready := fun c => D.ready c || (decide (c = b) && r) } els V fl := by
  obtain ⟨m1, m2, m3, m4, m5, -⟩ := makeTable_spec h.sees.ok h.sees.small (h.tabs b) hm
  have hkeep : ∀ k i, inPart P D k i → Q.mem i = P.mem i := fun k i hi => m1.keep i (h.lt hi)
  refine ⟨h.sees.frame m1.ok m1.mono m1.map fun e he i i1 i2 => hkeep (.elem e) i (h.inElem he i1 (by omega)), h.lists, fun c => ?_, fun c => ?_, fun e he => ?_, ?_, by rw [m1.root]; exact h.root⟩
  · by_cases hc : c = b
    · subst hc; exact m2
    · rw [m1.other c hc]
      refine (h.tabs c).frame m1.mono fun i hi => ?_
      rcases hi with hi | hi
      · exact hkeep (.names c) i hi
      · exact hkeep (.index c) i hi
  · by_cases hc : c = b
    · subst hc
      intro hr hl
      have hr : (D.ready c || (decide (c = c) && r)) = true := hr
      simp only [decide_true, Bool.true_and, Bool.or_eq_true] at hr
      rcases hr with hr | hr
      · exact absurd h0 (h.rdy c hr hl)
      · exact m5 hr hl
    · intro hr hl
      have hr : (D.ready c || (decide (c = b) && r)) = true := hr
      simp only [hc, decide_false, Bool.false_and, Bool.or_false] at hr
      rw [m1.other c hc]; exact h.rdy c hr hl
  · exact (h.elem e he).frame m1.mono fun i hi => hkeep (.elem e) i (h.inElem he (by omega) (by omega))
  · refine h.fresh (.index b) fun k i hi => ?_
    cases k with
    | elem e => exact Or.inl hi
    | names c =>
      have hi' : inNames (Q.tab c) (D.syms c) i := hi
      left
      by_cases hc : c = b
      · subst hc; unfold inNames at hi'; rw [m3] at hi'; exact hi'
      · rw [m1.other c hc] at hi'; exact hi'
    | index c =>
      have hi : inIndex (Q.tab c) (D.syms c) i := hi
      by_cases hc : c = b
      · subst hc
        obtain ⟨i1, i2, i3⟩ := hi
        rcases m4 with m4 | m4
        · exact absurd m4 i1
        · exact Or.inr ⟨rfl, by omega⟩
      · rw [m1.other c hc] at hi; exact Or.inl hi

theorem Keeps.ready {P : Pool} {D : Doc} {els V fl} (h : Keeps P D els V fl) {f : Bool → Bool} (hf : ∀ b, f b = true → D.syms b ≠ [] → (P.tab b).index ≠ 0) : Keeps P { D with ready := f } els V fl := by
  refine ⟨h.sees, h.lists, h.tabs, hf, h.elem, ?_, h.root⟩
  intro k k' i i1 i2
  exact h.apart k k' i (by cases k <;> exact i1) (by cases k' <;> exact i2)

theorem Keeps.ensure {P Q : Pool} {D : Doc} {els V fl} (h : Keeps P D els V fl) {b : Bool} {r : Bool} (hm : P.ensureTable b = .ok (Q, r)) :
    Keeps Q { D with ready := fun c => D.ready c || (decide (c = b) && r) } els V fl := by
  unfold Pool.ensureTable at hm
  by_cases h0 : (P.tab b).index ≠ 0
  · rw [if_pos h0] at hm
    simp only [Out.pure_eq, Out.ok.injEq, Prod.mk.injEq] at hm
    obtain ⟨rfl, rfl⟩ := hm
    refine h.ready fun c hc hl => ?_
    by_cases hcb : c = b
    · subst hcb; exact h0
    · simp only [hcb, decide_false, Bool.false_and, Bool.or_false] at hc
      exact h.rdy c hc hl
  · rw [if_neg h0] at hm
    exact h.index hm (by omega)

theorem Keeps.all {E : Env} {P Q : Pool} {D : Doc} {els V fl} (h : Keeps P D els V fl) {r : Bool} (hm : P.allRegistered E = .ok (Q, r)) :
    Keeps Q { D with ready := fun b => D.ready b || r } els V fl := by
  unfold Pool.allRegistered at hm
  obtain ⟨⟨P1, r1⟩, h1, hm⟩ := Out.bind_eq_ok hm
  have k1 := h.got (makeSpace_got h.sees.ok h1)
  have hfalse : ∀ {R : Pool}, Keeps R D els V fl → Keeps R { D with ready := fun b => D.ready b || false } els V fl := fun k => k.ready fun b hb hl => k.rdy b (by simpa using hb) hl
  cases r1 with
  | false =>
    rw [if_pos rfl] at hm
    simp only [Out.pure_eq, Out.ok.injEq, Prod.mk.injEq] at hm
    obtain ⟨rfl, rfl⟩ := hm
    exact hfalse k1
  | true =>
    rw [if_neg (by simp)] at hm
    obtain ⟨⟨P2, r2⟩, h2, hm⟩ := Out.bind_eq_ok hm
    have k2 := k1.ensure h2
    cases r2 with
    | false =>
      rw [if_pos rfl] at hm
      simp only [Out.pure_eq, Out.ok.injEq, Prod.mk.injEq] at hm
      obtain ⟨rfl, rfl⟩ := hm
      exact k2.ready (D := { D with ready := fun c => D.ready c || (decide (c = true) && false) }) fun b hb hl => k2.rdy b (by simpa using hb) hl
    | true =>
      rw [if_neg (by simp)] at hm
      have k3 := k2.ensure hm
      refine k3.ready fun b hb hl => k3.rdy b ?_ hl
      cases b <;> cases r <;> simp_all

theorem Keeps.clear {P Q : Pool} {D : Doc} {els V fl} (h : Keeps P D els V fl) (hc : P.clear = .ok (Q, true)) : Keeps Q D.cleared [] (fun _ _ => 0) (fun _ => 0) := by
  obtain ⟨c1, c2, c3, c4, c5, c6, c7, c8, c9, c10, c11, c12, -⟩ := clear_spec h.sees.ok h.sees.small (h.tabs true) (h.tabs false) hc
  refine ⟨⟨c1, by rw [c3]; exact h.sees.small, by simp, by simp, by simp, by simp, by simp, by simp⟩, ?_, fun b => ?_, fun b _ => ?_, by simp, ?_, c4⟩
  · refine ⟨?_, by simp [Doc.cleared, Doc.empty, Forest.none], by simp [Doc.cleared, Doc.empty, Forest.none], fun _ => trivial, by simp, by simp [Doc.cleared, Doc.empty, Forest.none], by simp,
      by simp [Doc.cleared, Doc.empty, Forest.none], by simp [Doc.cleared, Doc.empty, Forest.none], by simp [Doc.cleared, Doc.empty, Forest.none]⟩
    intro e
    simp [Forest.Elem, Doc.cleared, Doc.empty, Forest.none]
  · cases b
    · exact c6
    · exact c5
  · cases b
    · exact c8
    · exact c7
  · have hpos : 0 < poolHeader := by decide
    -- where the parts are
    have hT : ∀ i, inPart Q D.cleared (.names true) i → i < poolHeader + symsLen (D.syms true) := by
      rintro i ⟨i1, i2, i3⟩
      have i3 : i < Q.tags.names + symsLen (D.syms true) := i3
      omega
    have hP : ∀ i, inPart Q D.cleared (.names false) i → poolHeader + symsLen (D.syms true) ≤ i ∧ i < poolHeader + symsLen (D.syms true) + symsLen (D.syms false) := by
      rintro i ⟨i1, i2, i3⟩
      have i2 : Q.params.names ≤ i := i2
      have i3 : i < Q.params.names + symsLen (D.syms false) := i3
      omega
    have hIT : ∀ i, inPart Q D.cleared (.index true) i → Q.tags.index ≠ 0 ∧ poolHeader + symsLen (D.syms true) + symsLen (D.syms false) ≤ i ∧ i < Q.tags.index + 4 * (D.syms true).length := by
      rintro i ⟨i1, i2, i3⟩
      have i1 : Q.tags.index ≠ 0 := i1
      have i2 : Q.tags.index ≤ i := i2
      have i3 : i < Q.tags.index + 4 * (D.syms true).length := i3
      omega
    have hIP : ∀ i, inPart Q D.cleared (.index false) i → poolHeader + symsLen (D.syms true) + symsLen (D.syms false) ≤ i ∧ (Q.tags.index = 0 ∨ Q.tags.index + 4 * (D.syms true).length ≤ i) := by
      rintro i ⟨i1, i2, i3⟩
      have i1 : Q.params.index ≠ 0 := i1
      have i2 : Q.params.index ≤ i := i2
      omega
    have hE : ∀ e i, ¬ inPart Q D.cleared (.elem e) i := by
      rintro e i ⟨⟨q, hq⟩, -⟩
      simp [Doc.cleared, Doc.empty, Forest.none] at hq
    intro k k' i i1 i2
    cases k with
    | elem e => exact absurd i1 (hE e i)
    | names b =>
      cases k' with
      | elem e => exact absurd i2 (hE e i)
      | names b' =>
        cases b <;> cases b' <;> first | rfl | (have := hP i (by assumption); have := hT i (by assumption); omega)
      | index b' =>
        have h1 : i < poolHeader + symsLen (D.syms true) + symsLen (D.syms false) := by
          cases b
          · exact (hP i i1).2
          · have := hT i i1; omega
        cases b'
        · have := hIP i i2; omega
        · have := hIT i i2; omega
    | index b =>
      cases k' with
      | elem e => exact absurd i2 (hE e i)
      | names b' =>
        have h1 : i < poolHeader + symsLen (D.syms true) + symsLen (D.syms false) := by
          cases b'
          · exact (hP i i2).2
          · have := hT i i2; omega
        cases b
        · have := hIP i i1; omega
        · have := hIT i i1; omega
      | index b' =>
        cases b <;> cases b' <;> first | rfl | (have := hIP i (by assumption); have := hIT i (by assumption); omega)

/-- what `retype` does to the element `e` -/
theorem elemRetype_spec {P Q : Pool} {D : Doc} {els V fl} (h : Keeps P D els V fl) {e : Nat} (he : D.forest.Elem e) {t : XBT} {r : Bool} (hr : P.retype e t = .ok (Q, r)) :
    (r = false ∧ Q = P ∧ t ≠ D.type e ∧ ¬ (is4 t = true ∧ is4 (D.type e) = true) ∧ ¬ (is8 t = true ∧ is8 (D.type e) = true) ∧ ¬ (isVarsize t = true ∧ isVarsize (D.type e) = true)) ∨
    (r = true ∧ Q = { P with mem := memPut P.mem (e + 7) [t.code] } ∧
      (t = D.type e ∨ (is4 t = true ∧ is4 (D.type e) = true) ∨ (is8 t = true ∧ is8 (D.type e) = true) ∨ (isVarsize t = true ∧ isVarsize (D.type e) = true))) := by
  have hx := h.elem e ((h.lists.mem e).1 he)
  have hhi := hx.hi
  have hle := h.sees.ok.le
  have hli := h.sees.ok.lim
  have hty : P.eType e = .ok (D.type e).code := by
    unfold Pool.eType
    exact Img.u8_ok (f := P.img) hx.ty (by show _ ≤ P.fileSize; omega) _ (by omega)
  have hw : P.wr ((e : Int) + 7) [t.code] = .ok { P with mem := memPut P.mem (e + 7) [t.code] } := Pool.wr_eq (by simp only [List.length_cons, List.length_nil]; omega) _ (by omega)
  unfold Pool.retype at hr
  rw [hty, Out.ok_bind] at hr
  have hc : ∀ p, codeIs p (D.type e).code = p (D.type e) := fun p => by unfold codeIs; rw [ofCode_code]; rfl
  simp only [hc] at hr
  have dis : (is4 t = true → is8 t = false ∧ isVarsize t = false) ∧ (is8 t = true → isVarsize t = false) := by cases t <;> decide
  split at hr
  · rename_i hcode
    right
    cases hr
    have : some t = some (D.type e) := by rw [← ofCode_code t, ← hcode, ofCode_code]
    cases this
    refine ⟨rfl, ?_, Or.inl rfl⟩
    have : memPut P.mem (e + 7) [(D.type e).code] = P.mem := by
      funext i
      unfold memPut
      split
      · rename_i hi
        simp only [List.length_cons, List.length_nil] at hi
        have : i = e + 7 := by omega
        subst this
        have := hx.ty.get 0 (by simp)
        simpa using this.symm
      · rfl
    rw [this]
  · rename_i hcode
    have hne : t ≠ D.type e := by rintro rfl; exact hcode rfl
    split at hr
    · rename_i hcl
      rw [hw, Out.ok_bind] at hr
      cases hr
      right
      refine ⟨rfl, rfl, Or.inr ?_⟩
      simp only [Bool.or_eq_true, Bool.and_eq_true, Bool.not_eq_true'] at hcl
      rcases hcl with (hcl | hcl) | hcl
      · exact Or.inl hcl
      · exact Or.inr (Or.inl ⟨hcl.1.2, hcl.2⟩)
      · exact Or.inr (Or.inr ⟨hcl.1.2, hcl.2⟩)
    · rename_i hcl
      cases hr
      left
      simp only [Bool.or_eq_true, Bool.and_eq_true, Bool.not_eq_true', not_or] at hcl
      obtain ⟨⟨c1, c2⟩, c3⟩ := hcl
      refine ⟨rfl, rfl, hne, c1, fun hc => ?_, fun hc => ?_⟩
      · refine c2 ⟨⟨?_, hc.1⟩, hc.2⟩
        cases h4 : is4 t
        · rfl
        · rw [(dis.1 h4).1] at hc; exact absurd hc.1 (by decide)
      · refine c3 ⟨⟨⟨?_, ?_⟩, hc.1⟩, hc.2⟩
        · cases h4 : is4 t
          · rfl
          · rw [(dis.1 h4).2] at hc; exact absurd hc.1 (by decide)
        · cases h8 : is8 t
          · rfl
          · rw [dis.2 h8] at hc; exact absurd hc.1 (by decide)

/-- the type byte of an element is changed -/
theorem Keeps.retype {P : Pool} {D : Doc} {els V fl} (h : Keeps P D els V fl) {e : Nat} (he : D.forest.Elem e) (t : XBT) : Keeps { P with mem := memPut P.mem (e + 7) [t.code] } (D.withType e t) els V fl := by
  have hne : ∀ i, i ≠ e + 7 → memPut P.mem (e + 7) [t.code] i = P.mem i := fun i hi => memPut_frame _ _ _ _ (by simp only [List.length_cons, List.length_nil]; omega)
  have hpart : ∀ k i, inPart P D k i → (∀ x, k = .elem x → x ≠ e ∨ i ≠ e + 7) → memPut P.mem (e + 7) [t.code] i = P.mem i := by
    intro k i hi hk
    refine hne i ?_
    rintro rfl
    have := h.apart k (.elem e) (e + 7) hi ⟨he, by omega, by omega⟩
    have := hk e this
    omega
  have hel : ∀ x ∈ els, ∀ i, x ≤ i → i < x + 24 → i ≠ x + 7 → memPut P.mem (e + 7) [t.code] i = P.mem i := fun x hx i i1 i2 i3 => by
    refine hpart (.elem x) i (h.inElem hx i1 (by omega)) fun y hy => ?_
    simp only [Part.elem.injEq] at hy
    omega
  refine ⟨⟨h.sees.ok.mem _, h.sees.small, h.sees.range, h.sees.apart, fun x hx => ?_, fun x hx => ?_, fun x hx f hf => ?_, h.sees.bound⟩, h.lists, fun b => ?_, h.rdy, fun x hx => ?_, ?_, h.root⟩
  · exact (h.sees.off x hx).congr fun i i1 i2 => hel x hx i (by omega) (by rw [show (le32 _).length = 4 from leN_length _ _] at i2; omega) (by rw [show (le32 _).length = 4 from leN_length _ _] at i2; omega)
  · exact (h.sees.flag x hx).congr fun i i1 i2 => hel x hx i (by omega) (by simp only [List.length_cons, List.length_nil] at i2; omega) (by simp only [List.length_cons, List.length_nil] at i2; omega)
  · have hf' : f = 8 ∨ f = 12 ∨ f = 16 ∨ f = 20 := hf
    exact (h.sees.ptr x hx f hf).congr fun i i1 i2 => hel x hx i (by omega) (by rw [show (le32 _).length = 4 from leN_length _ _] at i2; omega) (by omega)
  · refine (h.tabs b).frame (Nat.le_refl _) fun i hi => ?_
    rcases hi with hi | hi
    · exact hpart (.names b) i hi (by simp)
    · exact hpart (.index b) i hi (by simp)
  · have hs := h.elem x hx
    show ElemAt _ x (D.id x) (if x = e then t else D.type x) (D.val x)
    by_cases hxe : x = e
    · subst hxe
      rw [if_pos rfl]
      refine ⟨hs.is16, hs.id.congr fun i i1 i2 => hne i ?_, Has.self _ _ _, hs.val.congr fun i i1 i2 => hne i (by omega), hs.hi, hs.pad⟩
      rw [leN_length] at i2; omega
    · rw [if_neg hxe]
      refine hs.frame (Nat.le_refl _) fun i hi => hpart (.elem x) i (h.inElem hx (by omega) (by omega)) fun y hy => ?_
      · simp only [Part.elem.injEq] at hy
        exact Or.inl (by omega)
  · intro k k' i i1 i2
    refine h.apart k k' i ?_ ?_
    · cases k <;> exact i1
    · cases k' <;> exact i2

/-- the memory behind the header is the same -/
theorem Keeps.same {P : Pool} {D : Doc} {els V fl} (h : Keeps P D els V fl) {m : Mem} (hm : ∀ i, poolHeader ≤ i → m i = P.mem i) : Keeps { P with mem := m } D els V fl := by
  have hr := h.sees.range
  refine ⟨⟨⟨h.sees.ok.head, h.sees.ok.al, h.sees.ok.le, h.sees.ok.lim, h.sees.ok.map, h.sees.ok.page⟩, h.sees.small, hr, h.sees.apart, fun e he => ?_, fun e he => ?_, fun e he k hk => ?_, h.sees.bound⟩,
    h.lists, fun b => ?_, h.rdy, fun e he => ?_, h.apart, h.root⟩
  · exact (h.sees.off e he).congr fun i i1 _ => hm i (by have := hr e he; omega)
  · exact (h.sees.flag e he).congr fun i i1 _ => hm i (by have := hr e he; omega)
  · exact (h.sees.ptr e he k hk).congr fun i i1 _ => hm i (by have := hr e he; omega)
  · exact (h.tabs b).frame (Nat.le_refl _) fun i hi => hm i ((h.tabs b).lt hi).1
  · exact (h.elem e he).frame (Nat.le_refl _) fun i hi => hm i (by have := hr e he; omega)

/-- the file of a document is opened -/
theorem Keeps.opened {P : Pool} {D : Doc} {els V fl} (h : Keeps P D els V fl) (hr : D.root < 2147483648) (E : Env) (n : Nat) :
    openFile E false n P.file = .ok (some ⟨{ P with mem := P.file.mem }, true, 0⟩) ∧ Keeps { P with mem := P.file.mem } D els V fl :=
  ⟨openFile_ok h.sees.ok h.sees.small h.tabs (by rw [h.root]; exact hr), h.same (file_mem P)⟩

/-- every document of a history is kept by its pool, and its root is a possible offset -/
theorem sess_both {E : Env} {maxSize : Nat} (h1 : 0x4000 ≤ maxSize) (h2 : maxSize < 2147483648) {P : Pool} {D : Doc} (h : Sess E maxSize P D) :
    (∃ els V fl, Keeps P D els V fl) ∧ D.root < 2147483648 := by
  induction h with
  | start =>
    refine ⟨?_, by decide⟩
    have hnil : ∀ b, ((Pool.empty maxSize).tab b) = ⟨-1, 0, 0, false⟩ := by intro b; cases b <;> rfl
    refine ⟨[], fun _ _ => 0, fun _ => 0, ⟨empty_ok h1, h2, by simp, by simp, by simp, by simp, by simp, by simp⟩, ⟨?_, by simp [Doc.empty, Forest.none], by simp [Doc.empty, Forest.none], fun _ => trivial, by simp,
      by simp [Doc.empty, Forest.none], by simp, by simp [Doc.empty, Forest.none], by simp [Doc.empty, Forest.none], by simp [Doc.empty, Forest.none]⟩, ?_, ?_, by simp, ?_, rfl⟩
    · intro e
      simp [Forest.Elem, Doc.empty, Forest.none]
    · intro b
      rw [hnil]
      exact ⟨rfl, by simp [Doc.empty], by simp [Doc.empty], by simp [Doc.empty], rfl, fun hc => absurd rfl hc, fun hc => absurd rfl hc, fun hc => absurd rfl hc⟩
    · intro b hb
      simp [Doc.empty] at hb
    · intro k k' i i1
      cases k with
      | elem e => obtain ⟨⟨q, hq⟩, -⟩ := i1; simp [Doc.empty, Forest.none] at hq
      | names b => have i1 : inNames _ _ _ := i1; rw [hnil] at i1; exact absurd rfl i1.1
      | index b => have i1 : inIndex _ _ _ := i1; rw [hnil] at i1; exact absurd rfl i1.1
  | @created m =>
    refine ⟨?_, by decide⟩
    have hnil : ∀ b, ({ Pool.empty maxSize with mem := m } : Pool).tab b = ⟨-1, 0, 0, false⟩ := by intro b; cases b <;> rfl
    refine ⟨[], fun _ _ => 0, fun _ => 0, ⟨⟨(empty_ok h1).head, (empty_ok h1).al, (empty_ok h1).le, (empty_ok h1).lim, (empty_ok h1).map, (empty_ok h1).page⟩, h2, by simp, by simp, by simp, by simp, by simp, by simp⟩, ⟨?_, by simp [Doc.empty, Forest.none], by simp [Doc.empty, Forest.none], fun _ => trivial, by simp,
      by simp [Doc.empty, Forest.none], by simp, by simp [Doc.empty, Forest.none], by simp [Doc.empty, Forest.none], by simp [Doc.empty, Forest.none]⟩, ?_, ?_, by simp, ?_, rfl⟩
    · intro e
      simp [Forest.Elem, Doc.empty, Forest.none]
    · intro b
      rw [hnil]
      exact ⟨rfl, by simp [Doc.empty], by simp [Doc.empty], by simp [Doc.empty], rfl, fun hc => absurd rfl hc, fun hc => absurd rfl hc, fun hc => absurd rfl hc⟩
    · intro b hb
      simp [Doc.empty] at hb
    · intro k k' i i1
      cases k with
      | elem e => obtain ⟨⟨q, hq⟩, -⟩ := i1; simp [Doc.empty, Forest.none] at hq
      | names b => have i1 : inNames _ _ _ := i1; rw [hnil] at i1; exact absurd rfl i1.1
      | index b => have i1 : inIndex _ _ _ := i1; rw [hnil] at i1; exact absurd rfl i1.1
  | made _ hid hl hm hk ih =>
    obtain ⟨⟨els, V, fl, k⟩, low⟩ := ih
    refine ⟨?_, low⟩
    exact ⟨_, _, _, k.made hid hl hm hk⟩
  | refused _ hm ih =>
    obtain ⟨⟨els, V, fl, k⟩, low⟩ := ih
    refine ⟨?_, low⟩
    exact ⟨els, V, fl, k.got (make_spec k.sees.ok hm).1⟩
  | copied _ hid hm hk ih =>
    obtain ⟨⟨els, V, fl, k⟩, low⟩ := ih
    refine ⟨?_, low⟩
    exact ⟨_, _, _, k.copied hid hm hk⟩
  | notCopied _ hm ih =>
    obtain ⟨⟨els, V, fl, k⟩, low⟩ := ih
    refine ⟨?_, low⟩
    exact ⟨els, V, fl, k.got (makeData_spec k.sees.ok hm).1⟩
  | space _ hm ih =>
    obtain ⟨⟨els, V, fl, k⟩, low⟩ := ih
    refine ⟨?_, low⟩
    exact ⟨els, V, fl, k.got (makeSpace_got k.sees.ok hm)⟩
  | step _ hs hr ih =>
    obtain ⟨⟨els, V, fl, k⟩, low⟩ := ih
    refine ⟨?_, low⟩
    obtain ⟨V', fl', k'⟩ := k.step hs hr
    exact ⟨els, V', fl', k'⟩
  | stored _ he hl hw ih =>
    obtain ⟨⟨els, V, fl, k⟩, low⟩ := ih
    refine ⟨?_, low⟩
    exact ⟨els, V, fl, k.store he hl hw⟩
  | written _ he hr ih =>
    obtain ⟨⟨els, V, fl, k⟩, low⟩ := ih
    exact ⟨⟨els, V, _, k.mark ((k.lists.mem _).1 he) hr⟩, low⟩
  | retyped _ he hr ih =>
    obtain ⟨⟨els, V, fl, k⟩, low⟩ := ih
    refine ⟨⟨els, V, fl, ?_⟩, low⟩
    rcases elemRetype_spec k he hr with ⟨hc, -⟩ | ⟨-, hQ, -⟩
    · cases hc
    · rw [hQ]; exact k.retype he _
  | @rooted _ _ D e _ he hr ih =>
    obtain ⟨⟨els, V, fl, k⟩, low⟩ := ih
    refine ⟨?_, ?_⟩
    · rw [setRoot_spec k he hr]
      exact ⟨els, V, fl, k.rooted _⟩
    · have := k.sees.range e ((k.lists.mem e).1 he)
      have := k.sees.ok.le; have := k.sees.ok.lim; have := k.sees.ok.map; have := k.sees.small
      show (if D.root = 0 then e else D.root) < _
      split <;> omega
  | registered _ hn1 hn2 hf hr h0 ih =>
    obtain ⟨⟨els, V, fl, k⟩, low⟩ := ih
    refine ⟨?_, low⟩
    rename_i D b name t id _
    rcases register_spec k.sees.ok k.sees.small (k.tabs b) (fun i i1 i2 => absurd (k.apart (.names b) (.index b) i i1 i2) (by simp)) ⟨hn1, hn2⟩ hf hr with ⟨rfl, -⟩ | ⟨i, r1, r2, r3, r4⟩
    · omega
    · refine ⟨els, V, fl, k.tab r3 fun hrd hl => ?_⟩
      simp only [Bool.and_eq_true] at hrd
      obtain ⟨hrd, hs⟩ := hrd
      have hk : ∃ s ∈ D.syms b, s.name = name := by
        unfold position at hs
        rw [Option.isSome_iff_ne_none, ne_eq, List.findIdx?_eq_none_iff] at hs
        simpa using hs
      rw [r4 hk]
      exact k.rdy b hrd (by rintro he; rw [he] at hk; simp at hk)
  | unregistered _ hn1 hn2 hf hr h0 ih =>
    obtain ⟨⟨els, V, fl, k⟩, low⟩ := ih
    refine ⟨?_, low⟩
    rename_i D b name t id _
    rcases register_spec k.sees.ok k.sees.small (k.tabs b) (fun i i1 i2 => absurd (k.apart (.names b) (.index b) i i1 i2) (by simp)) ⟨hn1, hn2⟩ hf hr with ⟨rfl, r3⟩ | ⟨i, r1, r2, r3, r4⟩
    · exact ⟨els, V, fl, k.tab r3 (by simp)⟩
    · omega
  | @altered _ _ D b _ _ _ hm ih =>
    obtain ⟨⟨els, V, fl, k⟩, low⟩ := ih
    refine ⟨?_, low⟩
    have hs := alter_spec k.sees.ok k.sees.small (k.tabs b) (fun i i1 i2 => absurd (k.apart (.names b) (.index b) i i1 i2) (by simp)) hm
    refine ⟨els, V, fl, k.tab hs.1 fun hrd hl => ?_⟩
    rw [hs.2]
    exact k.rdy b hrd (by rintro he; rw [he] at hl; simp [retyped] at hl)
  | allRegistered _ hm ih =>
    obtain ⟨⟨els, V, fl, k⟩, low⟩ := ih
    refine ⟨?_, low⟩
    exact ⟨els, V, fl, k.all hm⟩
  | cleared _ hm ih =>
    obtain ⟨⟨els, V, fl, k⟩, -⟩ := ih
    exact ⟨⟨_, _, _, k.clear hm⟩, show (0 : Nat) < 2147483648 by decide⟩
  | @reopened _ _ n _ _ ho ih =>
    obtain ⟨⟨els, V, fl, k⟩, low⟩ := ih
    refine ⟨⟨els, V, fl, ?_⟩, low⟩
    have := k.opened low E n
    rw [ho] at this
    obtain ⟨this, k'⟩ := this
    cases this
    exact k'
  | @killed _ _ _ _ _ _ _ n _ _ _ _ hr hk ho ih =>
    obtain ⟨⟨els, V, fl, k⟩, low⟩ := ih
    refine ⟨⟨els, V, fl, ?_⟩, low⟩
    have := (k.got (make_killed k.sees.ok hr hk)).opened low E n
    rw [ho] at this
    obtain ⟨this, k'⟩ := this
    cases this
    exact k'

theorem sess_keeps {E : Env} {maxSize : Nat} (h1 : 0x4000 ≤ maxSize) (h2 : maxSize < 2147483648) {P : Pool} {D : Doc} (h : Sess E maxSize P D) : ∃ els V fl, Keeps P D els V fl :=
  (sess_both h1 h2 h).1

end BX
