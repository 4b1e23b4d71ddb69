import Verif.Lemmas.Shift
import Verif.Spec.Append
import Verif.Props.Room
/-
Properties C31 and C32: appending to a file.
-/
namespace BX
open XBT Spec

/-- one append: the file keeps its bytes, and the new element is at the next multiple of four -/
theorem append_spec {c : Ctx} {m0 : Mem} {f g : Img} {e : Elem} (h : append c m0 f e = .ok g) (hflt : ∀ s, (c.flt s).length = 4) (hok : TreeOk c.ptype e)
    (hroom : f.size % 16 + (g.size - f.size) < c.limit) (hsz : f.size + c.limit < 2147483648) :
    Ext f g ∧ aa f.size + 12 < g.size ∧ g.size < 2147483648 ∧ ∀ h : Img, Ext g h → h.size < 2147483648 →
      h.length (aa f.size : Nat) = .ok ((g.size : Int) - (aa f.size : Nat)) ∧
      ∀ r, NamesIn (TagOk h r c) (ParOk h r c) e → Reads c.flt c.ptype h r e (aa f.size : Nat) := by
  unfold append at h
  simp only at h
  obtain ⟨⟨m', wp', x⟩, hw, h⟩ := Out.bind_eq_ok h
  simp only [Out.pure_eq, Out.ok.injEq] at h
  subst h
  simp only at hroom ⊢
  obtain ⟨D, hD⟩ : ∃ D, D = f.size - f.size % 16 := ⟨_, rfl⟩
  have hD8 : D % 8 = 0 := by omega
  have hfa : aa (aa (f.size % 16)) = aa (f.size % 16) := aa_of_mod (aa_mod _)
  obtain ⟨mx, mw⟩ := writeNode_mono e hw hok
  rw [hfa] at mx
  have ge := aa_ge (f.size % 16)
  have lt := aa_lt (f.size % 16)
  have ha : aa f.size = x + D := by
    have := aa_shift hD8 (f.size % 16)
    rw [show f.size % 16 + D = f.size by omega] at this
    omega
  have hs : Sh D m0 (fun a => m0 (a - D)) := by
    intro a
    simp only
    rw [Nat.add_sub_cancel]
  obtain ⟨M', hW, hM⟩ := writeNode_shift hD8 e hs hok hw
  have hlen : f.size + (wp' - f.size % 16) = wp' + D := by omega
  rw [hlen, ha]
  have hl : (slice m' (f.size % 16) (wp' - f.size % 16)).length = wp' - f.size % 16 := slice_length _ _ _
  have hext : Ext f ⟨memPut f.mem f.size (slice m' (f.size % 16) (wp' - f.size % 16)), wp' + D⟩ := by
    refine ⟨by simp only; omega, fun a ha => ?_⟩
    exact memPut_frame _ _ _ _ (by omega)
  refine ⟨hext, by omega, by omega, ?_⟩
  intro h hx hhs
  obtain ⟨s1, s2⟩ := writeNode_spec (c := c.longer D) hflt (by show c.limit + D < _; omega) e hW hok (by show _ < c.limit + D; omega)
  have hx2 := hx.size
  simp only at hx2
  obtain ⟨t1, t2, t3⟩ := s2 h hhs hx2 (by
    intro a a1 a2
    rw [hx.mem a (by simp only; omega)]
    simp only
    have := hM (a - D)
    rw [show a - D + D = a by omega] at this
    rw [this]
    unfold memPut
    rw [if_pos (by rw [hl]; omega), List.getD_eq_getElem?_getD, List.getElem?_eq_getElem (by rw [hl]; omega), slice_getElem]
    simp only [Option.getD_some]
    congr 1
    omega)
  exact ⟨t1, t3⟩

theorem Spec.TagOk.ext {f h : Img} (x : Ext f h) {r : Rd} {c : Ctx} {s : BStr} (hh : TagOk f r c s) : TagOk h r c s := ⟨hh.1, x.getSymbol _ _ _ hh.2⟩
theorem Spec.ParOk.ext {f h : Img} (x : Ext f h) {r : Rd} {c : Ctx} {s : BStr} (hh : ParOk f r c s) : ParOk h r c s := ⟨hh.1, x.getSymbol _ _ _ hh.2⟩

/-- the part of `getNextChild` behind the marker -/
def Img.appendedAt (f : Img) (i : Int) : Out (Option Int × Int) :=
  if aaI (-i) + 12 > f.size then return (none, i)
  else do
    let len ← f.length (aaI (-i))
    if aaI (-i) + len > f.size then return (none, i)
    else return (some (aaI (-i)), -(aaI (aaI (-i) + len)))

theorem Img.getNextChild_neg {f : Img} {x cc i : Int} (hc : f.childcount x = .ok cc) (h0 : 0 ≤ cc) (hi : i < 0) : f.getNextChild x i = f.appendedAt i := by
  unfold Img.getNextChild Img.appendedAt
  simp only
  rw [hc]
  simp only [Out.ok_bind]
  rw [if_neg (by omega), if_neg (by omega)]

theorem Img.getNextChild_marker {f : Img} {x i y L : Int} (hi : 0 ≤ i) (hc : f.getChildByIndex x i = .ok (some y)) (hn : f.name y = .ok (-9)) (hL : f.length 0 = .ok L) :
    f.getNextChild x i = f.appendedAt (-L) := by
  unfold Img.getChildByIndex at hc
  obtain ⟨cc, h1, hc⟩ := Out.bind_eq_ok hc
  split at hc
  · cases hc
  · next hlt =>
    obtain ⟨ca, h2, hc⟩ := Out.bind_eq_ok hc
    obtain ⟨r, h3, hc⟩ := Out.bind_eq_ok hc
    cases hc
    unfold Img.getNextChild Img.appendedAt
    simp only
    rw [h1]
    simp only [Out.ok_bind]
    rw [if_neg (by omega), if_pos hi, h2]
    simp only [Out.ok_bind]
    rw [h3]
    simp only [Out.ok_bind]
    rw [hn]
    simp only [Out.ok_bind]
    rw [if_neg (by simp), hL]
    simp only [Out.ok_bind]

theorem Img.getNextChild_child {f : Img} {x i y nm : Int} (hi : 0 ≤ i) (hc : f.getChildByIndex x i = .ok (some y)) (hn : f.name y = .ok nm) (h9 : nm ≠ -9) :
    f.getNextChild x i = .ok (some y, i + 1) := by
  unfold Img.getChildByIndex at hc
  obtain ⟨cc, h1, hc⟩ := Out.bind_eq_ok hc
  split at hc
  · cases hc
  · next hlt =>
    obtain ⟨ca, h2, hc⟩ := Out.bind_eq_ok hc
    obtain ⟨r, h3, hc⟩ := Out.bind_eq_ok hc
    cases hc
    unfold Img.getNextChild
    simp only
    rw [h1]
    simp only [Out.ok_bind]
    rw [if_neg (by omega), if_pos hi, h2]
    simp only [Out.ok_bind]
    rw [h3]
    simp only [Out.ok_bind]
    rw [hn]
    simp only [Out.ok_bind]
    rw [if_pos h9]
    rfl

theorem Spec.Lists.congr {f : Img} {x i j : Int} (h : f.getNextChild x i = f.getNextChild x j) {ys : List Int} (hl : Lists f x j ys) : Lists f x i ys := by
  cases hl with
  | done _ i' hh => exact .done i i' (by rw [h]; exact hh)
  | next _ y i' ys hh hr => exact .next i y i' ys (by rw [h]; exact hh) hr

/-- the children before the marker -/
theorem Spec.Marked.lists {f : Img} {x : Int} {ys : List Int} (hm : Marked f x ys) {ws : List Int} (hw : Lists f x ys.length ws) :
    ∀ k, k ≤ ys.length → Lists f x ((ys.length - k : Nat) : Int) (ys.drop (ys.length - k) ++ ws)
  | 0, _ => by simpa using hw
  | k+1, hk => by
    have ih := Marked.lists hm hw k (by omega)
    obtain ⟨h1, nm, h2, h3⟩ := hm.child (ys.length - (k + 1)) (by omega)
    rw [List.drop_eq_getElem_cons (by omega : ys.length - (k + 1) < ys.length)]
    refine .next _ _ _ _ (Img.getNextChild_child (by omega) h1 h2 h3) ?_
    rw [show ((ys.length - (k + 1) : Nat) : Int) + 1 = ((ys.length - k : Nat) : Int) by omega, show ys.length - (k + 1) + 1 = ys.length - k by omega]
    exact ih

theorem Spec.Marked.ext {f h : Img} (e : Ext f h) {x : Int} {ys : List Int} (hm : Marked f x ys) : Marked h x ys := by
  refine ⟨e.childcount _ _ hm.count, fun i hi => ?_, ?_⟩
  · obtain ⟨h1, nm, h2, h3⟩ := hm.child i hi
    exact ⟨e.getChildByIndex _ _ _ h1, nm, e.name _ _ h2, h3⟩
  · obtain ⟨y, h1, h2⟩ := hm.marker
    exact ⟨y, e.getChildByIndex _ _ _ h1, e.name _ _ h2⟩

theorem Spec.Grows.ext {f g : Img} {ops : List AppendOp} {f0 : Img} {r : Rd} (h : Grows f ops g) (hok : ∀ op ∈ ops, Appendable f0 r op) : Ext f g ∧ (f.size < 2147483648 → g.size < 2147483648) := by
  induction h with
  | nil f => exact ⟨Ext.refl f, id⟩
  | @cons f g' g op ops ha hr hs hg ih =>
    have a := hok op (by simp)
    obtain ⟨e1, e2, e3, -⟩ := append_spec ha a.flt a.tree hr hs
    obtain ⟨i1, i2⟩ := ih (fun op ho => hok op (by simp [ho]))
    exact ⟨e1.trans i1, fun _ => i2 e3⟩

/-- the appended elements, in a file that begins with all of them -/
theorem Spec.Grows.lists {f g : Img} {ops : List AppendOp} (hg : Grows f ops g) {f0 : Img} {r : Rd} (h0 : Ext f0 f) (hok : ∀ op ∈ ops, Appendable f0 r op) {h : Img} (hx : Ext g h)
    (hsz : h.size < 2147483648) {x cc : Int} (hc : h.childcount x = .ok cc) (hcc : 0 ≤ cc) (hpos : 0 < f.size) :
    ∃ zs, ReadsOps h r ops zs ∧ ∀ i : Int, aaI (-i) = (aa f.size : Nat) → ∃ j : Int, aaI (-j) = (aa g.size : Nat) ∧ ∀ ws, Lists h x j ws → Lists h x i (zs ++ ws) := by
  induction hg with
  | nil f =>
    refine ⟨[], ⟨rfl, fun i hi => absurd hi (by simp)⟩, fun i hi => ⟨i, hi, fun ws hw => by simpa using hw⟩⟩
  | @cons f g' g op ops ha hr hs hg ih =>
    have a := hok op (by simp)
    obtain ⟨e1, e2, e3, e4⟩ := append_spec ha a.flt a.tree hr hs
    have hok' : ∀ o ∈ ops, Appendable f0 r o := fun o ho => hok o (by simp [ho])
    have eg := (hg.ext hok').1
    obtain ⟨l1, l2⟩ := e4 h (eg.trans hx) hsz
    have hp : 0 < aa f.size := by have := aa_ge f.size; omega
    obtain ⟨zs, ⟨i1, i2⟩, i3⟩ := ih (h0.trans e1) hok' hx (by omega)
    refine ⟨((aa f.size : Nat) : Int) :: zs, ⟨by simp [i1], ?_⟩, ?_⟩
    · intro i hi hi'
      cases i with
      | zero =>
        simp only [List.getElem_cons_zero]
        exact l2 r (NamesIn.mono (fun s hs => hs.ext ((h0.trans e1).trans (eg.trans hx))) (fun s hs => hs.ext ((h0.trans e1).trans (eg.trans hx))) op.e a.names)
      | succ i =>
        simp only [List.getElem_cons_succ]
        exact i2 i (by simpa using hi) (by simpa using hi')
    · intro i hi
      have hneg : i < 0 := by unfold aaI at hi; omega
      obtain ⟨j, j1, j2⟩ := i3 (-(aaI (g'.size : Int))) (by rw [Int.neg_neg, aaI_cast, aaI_cast, aa_of_mod (aa_mod _)])
      refine ⟨j, j1, fun ws hw => ?_⟩
      refine .next _ _ (-(aaI (g'.size : Int))) _ ?_ (j2 ws hw)
      rw [Img.getNextChild_neg hc hcc hneg]
      unfold Img.appendedAt
      have hs2 := (eg.trans hx).size
      rw [hi, if_neg (by omega), l1]
      simp only [Out.ok_bind]
      rw [show ((aa f.size : Nat) : Int) + ((g'.size : Int) - (aa f.size : Nat)) = g'.size by omega, if_neg (by omega)]
      rfl

/-- iteration over a marked node of a file that begins with `g`, if nothing is found behind `g` -/
theorem Spec.Grows.visible {f g : Img} {ops : List AppendOp} (hg : Grows f ops g) {r : Rd} (hok : ∀ op ∈ ops, Appendable f r op) {x : Int} {ys : List Int} (hm : Marked f x ys)
    {L : Int} (hL : f.length 0 = .ok L) (hLs : aaI L = (aa f.size : Nat)) (hfs : f.size < 2147483648) {h : Img} (hx : Ext g h) (hsz : h.size < 2147483648)
    (hend : ∀ j, aaI (-j) = (aa g.size : Nat) → ∃ j', h.appendedAt j = .ok (none, j')) :
    ∃ zs, Lists h x 0 (ys ++ zs) ∧ ReadsOps h r ops zs := by
  have eg := (hg.ext hok).1
  have e := eg.trans hx
  have hpos : 0 < f.size := by
    obtain ⟨h1, h2⟩ : 0 ≤ x + 4 ∧ x + 4 + 4 ≤ f.size := by
      have := hm.count
      unfold Img.childcount Img.i32 at this
      obtain ⟨l, hl, -⟩ := Out.bind_eq_ok this
      unfold Img.rd at hl
      split at hl
      · assumption
      · cases hl
    omega
  have hm' := hm.ext e
  obtain ⟨zs, z1, z2⟩ := hg.lists (Ext.refl f) hok hx hsz hm'.count (by omega) hpos
  obtain ⟨j, j1, j2⟩ := z2 (-L) (by rw [Int.neg_neg]; exact hLs)
  refine ⟨zs, ?_, z1⟩
  have hp : 0 < aa f.size := by have := aa_ge f.size; omega
  have hp' : 0 < aa g.size := by have := aa_ge g.size; have := eg.size; omega
  obtain ⟨j', hj'⟩ := hend j j1
  have hjl : Lists h x j [] := .done j j' (by
    rw [Img.getNextChild_neg hm'.count (by omega) (by unfold aaI at j1; omega)]
    exact hj')
  have hl := j2 [] hjl
  rw [List.append_nil] at hl
  obtain ⟨y, y1, y2⟩ := hm'.marker
  have hstart : Lists h x (ys.length : Int) zs := by
    refine Lists.congr ?_ hl
    rw [Img.getNextChild_marker (by omega) y1 y2 (e.length _ _ hL), Img.getNextChild_neg hm'.count (by omega) (by unfold aaI at hLs; omega)]
  have := hm'.lists hstart ys.length (Nat.le_refl _)
  simpa using this

/-- C31: after any number of appends to a file whose node at `x` has the append marker as its last child, iterating over the children
of that node returns its original children followed by the appended elements in the order of appending, each reading as the element
given to `Append`. The hypotheses: the file ended where the root item says (`aaI L`), elements have faithfully stored values, use the
names of the file's dictionary, and did not fill the creator's buffer. -/
theorem C31_appended_partial (f g : Img) (r : Rd) (x L : Int) (ys : List Int) (ops : List AppendOp) (hm : Marked f x ys) (hL : f.length 0 = .ok L) (hLs : aaI L = (aa f.size : Nat))
    (hfs : f.size < 2147483648) (hok : ∀ op ∈ ops, Appendable f r op) (hg : Grows f ops g) :
    ∃ zs, Lists g x 0 (ys ++ zs) ∧ ReadsOps g r ops zs := by
  refine hg.visible hok hm hL hLs hfs (Ext.refl g) ((hg.ext hok).2 hfs) ?_
  intro j hj
  refine ⟨j, ?_⟩
  unfold Img.appendedAt
  have := aa_ge g.size
  rw [hj, if_pos (by omega)]
  rfl

/-- C31: the original part of the file still opens with the same dictionary and root, and reads as before. -/
theorem C31_original (f g : Img) (r : Rd) (ops : List AppendOp) (hok : ∀ op ∈ ops, Appendable f r op) (hg : Grows f ops g) :
    (∀ fuel q, f.initialize fuel = .ok q → g.initialize fuel = .ok q) ∧
    ∀ flt pt q e a, Reads flt pt f q e a → Reads flt pt g q e a :=
  ⟨fun fuel q h => ((hg.ext hok).1).initialize fuel q h, fun _ _ _ e a h => ((hg.ext hok).1).reads e a h⟩

/-- C32: when the append after any history of appends is cut off, whatever number `n` of bytes the file then has, the reader sees exactly
the original children and the completely appended elements: the partial element is not returned, and iterating never reads outside. -/
theorem C32_torn_partial (f g g' : Img) (r : Rd) (x L : Int) (ys : List Int) (ops : List AppendOp) (op : AppendOp) (hm : Marked f x ys) (hL : f.length 0 = .ok L)
    (hLs : aaI L = (aa f.size : Nat)) (hfs : f.size < 2147483648) (hok : ∀ o ∈ ops ++ [op], Appendable f r o) (hg : Grows f ops g) (hg' : Grows g [op] g')
    (n : Nat) (h1 : g.size ≤ n) (h2 : n < g'.size) :
    (∃ zs, Lists ⟨g'.mem, n⟩ x 0 (ys ++ zs) ∧ ReadsOps ⟨g'.mem, n⟩ r ops zs) ∧ (∀ fuel q, f.initialize fuel = .ok q → Img.initialize ⟨g'.mem, n⟩ fuel = .ok q) := by
  have hok1 : ∀ o ∈ ops, Appendable f r o := fun o ho => hok o (by simp [ho])
  have a := hok op (by simp)
  cases hg' with
  | cons ha hr hs hnil =>
    cases hnil
    obtain ⟨e1, e2, e3, e4⟩ := append_spec ha a.flt a.tree hr hs
    have hx : Ext g ⟨g'.mem, n⟩ := ⟨h1, e1.mem⟩
    have hx2 : Ext ⟨g'.mem, n⟩ g' := ⟨by simp only; omega, fun _ _ => rfl⟩
    refine ⟨hg.visible hok1 hm hL hLs hfs hx (by simp only; omega) ?_, fun fuel q h => (((hg.ext hok1).1).trans hx).initialize fuel q h⟩
    intro j hj
    refine ⟨j, ?_⟩
    unfold Img.appendedAt
    rw [hj]
    simp only
    by_cases hb : ((aa g.size : Nat) : Int) + 12 > n
    · rw [if_pos hb]; rfl
    · rw [if_neg hb]
      have hlen := (e4 g' (Ext.refl g') e3).1
      have : Img.length ⟨g'.mem, n⟩ ((aa g.size : Nat) : Int) = .ok ((g'.size : Int) - (aa g.size : Nat)) := by
        cases hh : Img.length ⟨g'.mem, n⟩ ((aa g.size : Nat) : Int) with
        | ok v => have := hx2.length _ _ hh; rw [this] at hlen; cases hlen; rfl
        | fail =>
          unfold Img.length Img.i32 Img.rd at hh
          rw [if_pos (by simp only; omega)] at hh
          cases hh
        | ub =>
          unfold Img.length Img.i32 Img.rd at hh
          rw [if_pos (by simp only; omega)] at hh
          cases hh
      rw [this]
      simp only [Out.ok_bind]
      rw [if_pos (by omega)]
      rfl

/-! ### from a converted document -/

/-- the items at `ys` read as the elements, in order -/
def Spec.ReadsEach (flt : CStr → List UInt8) (pt : BStr → XBT) (f : Img) (r : Rd) (es : List Elem) (ys : List Int) : Prop :=
  ys.length = es.length ∧ ∀ i (h : i < es.length) (h' : i < ys.length), Reads flt pt f r es[i] ys[i]

theorem Reads.symbol {flt : CStr → List UInt8} {pt : BStr → XBT} {f : Img} {r : Rd} {e : Elem} {x : Int} (h : Reads flt pt f r e x) :
    ∃ id, f.name x = .ok id ∧ (id = -9 ↔ e.name = b8 "et-tecera") := by
  obtain ⟨name, value, params, children⟩ := e
  unfold Reads at h
  obtain ⟨⟨id, h1, h2, h3⟩, -⟩ := h
  refine ⟨id, h1, ?_, h3⟩
  rintro rfl
  have : f.getSymbol r.tags (-9) = .ok (b8 "et-tecera") := by
    unfold Img.getSymbol
    rw [if_pos (by omega)]
    rfl
  rw [this] at h2
  cases h2
  rfl

theorem ReadsAll.split {flt : CStr → List UInt8} {pt : BStr → XBT} {f : Img} {r : Rd} {x : Int} {mk : Elem} : ∀ (cs : List Elem) (i : Nat), ReadsAll flt pt f r (cs ++ [mk]) x i →
    ∃ ys y, ReadsEach flt pt f r cs ys ∧ (∀ j (h : j < ys.length), f.getChildByIndex x ((i + j : Nat) : Int) = .ok (some ys[j])) ∧
      f.getChildByIndex x ((i + cs.length : Nat) : Int) = .ok (some y) ∧ Reads flt pt f r mk y
  | [], i, h => by
    simp only [List.nil_append] at h
    unfold ReadsAll at h
    obtain ⟨⟨y, h1, h2⟩, -⟩ := h
    exact ⟨[], y, ⟨rfl, fun j hj => absurd hj (by simp)⟩, fun j hj => absurd hj (by simp), by simpa using h1, h2⟩
  | c :: cs, i, h => by
    simp only [List.cons_append] at h
    unfold ReadsAll at h
    obtain ⟨⟨y0, h1, h2⟩, h3⟩ := h
    obtain ⟨ys, y, ⟨l, k1⟩, k2, k3, k4⟩ := ReadsAll.split cs (i + 1) h3
    refine ⟨y0 :: ys, y, ⟨by simp [l], ?_⟩, ?_, ?_, k4⟩
    · intro j hj hj'
      cases j with
      | zero => exact h2
      | succ j => exact k1 j (by simpa using hj) (by simpa using hj')
    · intro j hj
      cases j with
      | zero => exact h1
      | succ j =>
        simp only [List.getElem_cons_succ]
        rw [show i + (j + 1) = i + 1 + j by omega]
        exact k2 j (by simpa using hj)
    · rw [List.length_cons, show i + (cs.length + 1) = i + 1 + cs.length by omega]
      exact k3

/-- an element whose last child is the marker reads as a marked item -/
theorem Reads.marked {flt : CStr → List UInt8} {pt : BStr → XBT} {f : Img} {r : Rd} {name : BStr} {value : SVal} {params : List (BStr × SVal)} {cs : List Elem} {mk : Elem} {x : Int}
    (h : Reads flt pt f r (.mk name value params (cs ++ [mk])) x) (hcs : ∀ c ∈ cs, c.name ≠ b8 "et-tecera") (hmk : mk.name = b8 "et-tecera") :
    ∃ ys, Marked f x ys ∧ ReadsEach flt pt f r cs ys := by
  unfold Reads at h
  obtain ⟨-, -, -, -, hc, hall⟩ := h
  obtain ⟨ys, y, he, h1, h2, h3⟩ := ReadsAll.split cs 0 hall
  refine ⟨ys, ⟨?_, ?_, ?_⟩, he⟩
  · rw [hc, he.1]; simp
  · intro i hi
    obtain ⟨id, i1, i2⟩ := Reads.symbol (he.2 i (by have := he.1; omega) hi)
    refine ⟨by have := h1 i hi; simpa using this, id, i1, ?_⟩
    intro h9
    exact hcs _ (List.getElem_mem _) (i2.mp h9)
  · obtain ⟨id, i1, i2⟩ := Reads.symbol h3
    refine ⟨y, by rw [he.1]; simpa using h2, ?_⟩
    rw [i1, i2.mpr hmk]

/-- C31 for converted documents: a document whose root has the append marker as its last child, converted, then any sequence of
appends of elements using names of the document: the file opens, and iterating over the children of its root gives the children of the
document and then the appended elements in the order of appending. -/
theorem C31_document_partial (flt : CStr → List UInt8) (hflt : ∀ s, (flt s).length = 4) (filename : BStr) (hfn : NoNul filename) (mtime : Int) (filesize : Nat)
    (hsz : 1024 + filesize * 4 < 2147483648) (m0 : Mem) (name : BStr) (value : SVal) (params : List (BStr × SVal)) (cs : List Elem) (mk e : Elem)
    (he : e = .mk name value params (cs ++ [mk])) (hcs : ∀ c ∈ cs, c.name ≠ b8 "et-tecera") (hmk : mk.name = b8 "et-tecera")
    (f : Img) (h : makeXb flt filename mtime filesize m0 e = .ok f)
    (hroom : f.size < 1024 + filesize * 4) (hnames : NamesIn NoNul NoNul e) (htags : AtMost 32768 (tagOps e)) (hpars : AtMost 32768 (paramOps e))
    (hok : TreeOk (docAttrType e) e) (ops : List AppendOp)
    (hops : ∀ op ∈ ops, op.c.tags = regAll (tagOps e) ∧ op.c.params = regAll (paramOps e) ∧ (∀ s, (op.c.flt s).length = 4) ∧ TreeOk op.c.ptype op.e ∧
      NamesIn (fun s => ∃ o ∈ tagOps e, o.name = s) (fun s => ∃ o ∈ paramOps e, o.name = s) op.e)
    (g : Img) (hg : Grows f ops g) (fuel : Nat) :
    ∃ r x ys zs, g.initialize (fuel + 1) = .ok r ∧ r.root = some x ∧ Lists g x 0 (ys ++ zs) ∧ ReadsEach flt (docAttrType e) g r cs ys ∧ ReadsOps g r ops zs := by
  obtain ⟨r, x, h1, h2, h3, h4, ⟨L, h5, h6⟩, h7, h8⟩ := makeXb_facts flt hflt filename hfn mtime filesize hsz m0 e f h hroom hnames htags hpars hok
  have hap : ∀ op ∈ ops, Appendable f r op := by
    intro op ho
    obtain ⟨a1, a2, a3, a4, a5⟩ := hops op ho
    refine ⟨a3, a4, NamesIn.mono ?_ ?_ op.e a5⟩
    · rintro s ⟨o, o1, rfl⟩
      have := h7 o o1
      unfold TagOk at this ⊢
      rw [a1]
      exact this
    · rintro s ⟨o, o1, rfl⟩
      have := h8 o o1
      unfold ParOk at this ⊢
      rw [a2]
      exact this
  subst he
  obtain ⟨ys, m1, m2, m3⟩ := Reads.marked h3 hcs hmk
  have hs4 : aa f.size = f.size := by rw [← h6]; exact aa_of_mod (aa_mod _)
  obtain ⟨zs, z1, z2⟩ := C31_appended_partial f g r x L ys ops m1 h5 (by rw [aaI_cast, h6, hs4]) (by omega) hap hg
  have hx := (hg.ext hap).1
  exact ⟨r, x, ys, zs, hx.initialize _ _ (h1 fuel), h2, z1, ⟨m2, fun i hi hi' => hx.reads _ _ (m3 i hi hi')⟩, z2⟩

/-! ### examples -/

/-- `<log><entry>first</entry><et-tecera/></log>` -/
def exLog : Elem := .mk (b8 "log") .none [] [.mk (b8 "entry") (.text "first".toList) [(b8 "at", .text "5".toList)] [], .mk (b8 "et-tecera") .none [] []]
/-- the file made of it -/
def exLogFile : Out Img := makeXb (fun _ => [0,0,0,0]) (b8 "f") 0 100 (fun _ => 0) exLog
/-- a creator with the tables of that document -/
def exCtx : Ctx := ⟨regAll (tagOps exLog), regAll (paramOps exLog), fun _ => [0,0,0,0], 400⟩
/-- `<entry at="6">text</entry>` -/
def exEntry (s : String) : Elem := .mk (b8 "entry") (.text s.toList) [(b8 "at", .text "6".toList)] []
def exOp (s : String) : AppendOp := ⟨exCtx, fun _ => 0, exEntry s⟩

/-- the texts found by iterating -/
def textsFrom (f : Img) (x : Int) : Nat → Int → Out (List (Option BStr))
  | 0, _ => return []
  | n+1, i => do
    let (y, i) ← f.getNextChild x i
    match y with
    | none => return []
    | some y => do
      let t ← f.getText y
      let l ← textsFrom f x n i
      return t :: l

/-- the texts of the children of the root of a file -/
def texts (o : Out Img) : Out (List (Option BStr)) := do
  let f ← o
  let r ← f.initialize 3
  match r.root with
  | none => .fail
  | some x => textsFrom f x 10 0

/-- a file with three appended entries shows all of them -/
example : texts (do let f ← exLogFile; let f ← append exCtx (fun _ => 0) f (exEntry "second"); let f ← append exCtx (fun _ => 7) f (exEntry "3rd"); append exCtx (fun _ => 0) f (exEntry "next one")) =
    .ok [some (b8 "first"), some (b8 "second"), some (b8 "3rd"), some (b8 "next one")] := by decide +kernel

/-- the hypotheses of `C31_document_partial` about the appended elements hold for such entries -/
example : NamesIn (fun s => ∃ o ∈ tagOps exLog, o.name = s) (fun s => ∃ o ∈ paramOps exLog, o.name = s) (exEntry "second") ∧ TreeOk exCtx.ptype (exEntry "second") ∧
    NamesIn NoNul NoNul exLog ∧ TreeOk (docAttrType exLog) exLog := by
  refine ⟨?_, ?_, ?_, ?_⟩
  · simp only [exEntry, NamesIn, NamesInAll]
    decide +kernel
  · simp only [exEntry, TreeOk, TreeOkAll]
    decide +kernel
  · simp only [exLog, NamesIn, NamesInAll]
    decide +kernel
  · simp only [exLog, TreeOk, TreeOkAll]
    decide +kernel

/-- decides whether a history of appends is possible -/
def growsB (f : Img) : List AppendOp → Bool
  | [] => true
  | op :: ops => match append op.c op.m0 f op.e with
    | .ok g => decide (f.size % 16 + (g.size - f.size) < op.c.limit) && decide (f.size + op.c.limit < 2147483648) && growsB g ops
    | _ => false

theorem growsB_sound : ∀ (ops : List AppendOp) (f : Img), growsB f ops = true → ∃ g, Grows f ops g
  | [], f, _ => ⟨f, .nil f⟩
  | op :: ops, f, h => by
    unfold growsB at h
    split at h
    · rename_i g hg
      simp only [Bool.and_eq_true, decide_eq_true_eq] at h
      obtain ⟨k, hk⟩ := growsB_sound ops g h.2
      exact ⟨k, .cons hg h.1.1 h.1.2 hk⟩
    · cases h

/-- the remaining hypotheses of `C31_document_partial`: the file is made without filling the buffer and can grow -/
example : ∃ f g, exLogFile = .ok f ∧ f.size < 1024 + 100 * 4 ∧ Grows f [exOp "second", exOp "3rd", exOp "x"] g := by
  have : (match exLogFile with | .ok f => decide (f.size < 1024 + 100 * 4) && growsB f [exOp "second", exOp "3rd", exOp "x"] | _ => false) = true := by decide +kernel
  revert this
  cases exLogFile with
  | ok f =>
    intro h
    simp only [Bool.and_eq_true, decide_eq_true_eq] at h
    obtain ⟨g, hg⟩ := growsB_sound _ _ h.2
    exact ⟨f, g, rfl, h.1, hg⟩
  | fail => intro h; cases h
  | ub => intro h; cases h

/-- the torn append: the second entry cut off one byte before its end is not shown -/
example : texts (do let f ← exLogFile; let f ← append exCtx (fun _ => 0) f (exEntry "second"); return ⟨f.mem, f.size - 1⟩) = .ok [some (b8 "first")] := by decide +kernel

/-- C32 does not extend to appends after a crash: the next entry is written behind the torn one, whose length then covers a part of
it. A partial element is shown (its text mixed from both), the complete one is not. -/
theorem C32_after_crash_false : texts (do
    let f ← exLogFile
    let g ← append exCtx (fun _ => 0) f (exEntry "second")
    append exCtx (fun _ => 0) ⟨g.mem, g.size - 4⟩ (exEntry "third")) ≠ .ok [some (b8 "first"), some (b8 "third")] := by decide +kernel

end BX
