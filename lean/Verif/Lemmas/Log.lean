import Verif.Lemmas.SourceXb
import Verif.Props.Append
import Verif.Spec.Log
/-
Batches of elements written to a file.
-/
namespace BX
open XBT Spec

theorem append_size {c : Ctx} {m0 : Mem} {f g : Img} {e : Elem} (h : append c m0 f e = .ok g) : f.size ≤ g.size := by
  unfold append at h
  simp only at h
  obtain ⟨r, -, h⟩ := Out.bind_eq_ok h
  simp only [Out.pure_eq, Out.ok.injEq] at h
  subst h
  exact Nat.le_add_right _ _

theorem writeLoop_size {c : Ctx} {bufs : Nat → Mem} {list : Int} {deep : Nat} : ∀ {n : Nat} {P Q : Pool} {f g : Img} {e : Int}, Pool.writeLoop c bufs list deep n P f e = .ok (Q, g) → f.size ≤ g.size
  | 0, _, _, _, _, _, h => by unfold Pool.writeLoop at h; cases h
  | n+1, P, Q, f, g, e, h => by
    unfold Pool.writeLoop at h
    obtain ⟨s, -, h⟩ := Out.bind_eq_ok h
    obtain ⟨f1, h1, h⟩ := Out.bind_eq_ok h
    obtain ⟨P1, -, h⟩ := Out.bind_eq_ok h
    obtain ⟨nx, -, h⟩ := Out.bind_eq_ok h
    have := append_size h1
    split at h
    · cases h
    · split at h
      · cases h; exact this
      · exact Nat.le_trans this (writeLoop_size h)

/-- the appends of a call of `Write` are those of the trees of the batch -/
def LogOps (D : Doc) (els : List Nat) (c : Ctx) (Ts : List ETree) (ops : List AppendOp) : Prop :=
  ops.length = Ts.length ∧ ∀ i (h : i < ops.length) (h' : i < Ts.length), ops[i].c = c ∧ ∃ P V fl, Keeps P D els V fl ∧ ops[i].e = srcElem P D Ts[i]

theorem LogOps.cons {D : Doc} {els : List Nat} {c : Ctx} {T : ETree} {Ts : List ETree} {op : AppendOp} {ops : List AppendOp} (h1 : op.c = c) {P : Pool} {V fl} (h2 : Keeps P D els V fl) (h3 : op.e = srcElem P D T)
    (h : LogOps D els c Ts ops) : LogOps D els c (T :: Ts) (op :: ops) := by
  refine ⟨by simp [h.1], fun i hi hi' => ?_⟩
  cases i with
  | zero => exact ⟨h1, P, V, fl, h2, h3⟩
  | succ i => exact h.2 i (by simpa using hi) (by simpa using hi')

theorem write_spec {E : Env} {maxSize : Nat} {D : Doc} {els V} {c : Ctx} {bufs : Nat → Mem} {deep : Nat} {a : Nat} (hr : ∀ b, D.ready b = true) : ∀ (Ts : List ETree) (T : ETree) (n : Nat) (P Q : Pool) (fl : Nat → UInt8) (f g : Img),
    Sess E maxSize P D → Keeps P D els V fl → Links (V 8) (V 12) (tops (T :: Ts) ++ [a]) → (∀ x ∈ tops (T :: Ts), x ∈ els) → a ∉ tops Ts → (tops (T :: Ts)).Nodup → D.BelowAll (T :: Ts) → D.EveryAll D.storedElem D.storedAttr (T :: Ts) →
    D.stepsAll (T :: Ts) ≤ deep → Pool.writeLoop c bufs a deep n P f T.top = .ok (Q, g) → 16 + (g.size - f.size) ≤ c.limit → g.size + c.limit < 2147483648 →
    Sess E maxSize Q D ∧ (∃ fl', Keeps Q D els V fl' ∧ ∀ y, fl' y = if y ∈ tops (T :: Ts) then fl y ||| 4 else fl y) ∧ ∃ ops, Grows f ops g ∧ LogOps D els c (T :: Ts) ops
  | Ts, T, 0, P, Q, fl, f, g, _, _, _, _, _, _, _, _, _, h, _, _ => by unfold Pool.writeLoop at h; cases h
  | Ts, T, n+1, P, Q, fl, f, g, hs, k, hL, hm, ha, hnd, hb, hq, hd, h, h16, hsz => by
    have hm0 : T.top ∈ els := hm _ (by simp [tops])
    have hb' : D.Below T ∧ D.BelowAll Ts := by unfold Doc.BelowAll at hb; exact hb
    have hq' : D.Every D.storedElem D.storedAttr T ∧ D.EveryAll D.storedElem D.storedAttr Ts := by unfold Doc.EveryAll at hq; exact hq
    unfold Doc.stepsAll at hd
    unfold Pool.writeLoop at h
    rw [source_spec k hr T deep hb'.1 hm0 hq'.1 (by omega), Out.ok_bind] at h
    obtain ⟨f1, h1, h⟩ := Out.bind_eq_ok h
    obtain ⟨P1, h2, h⟩ := Out.bind_eq_ok h
    have hs1 := Sess.written hs ((k.lists.mem _).2 hm0) h2
    have k1 := k.mark hm0 h2
    rw [k1.sees.nx hm0, Out.ok_bind] at h
    have hf1 := append_size h1
    match Ts, hL, hm, ha, hnd, hb', hq', hd with
    | [], hL, hm, ha, hnd, hb', hq', hd =>
      have hnx : V 8 T.top = a := by simp [Links, tops] at hL; exact hL.1
      rw [hnx] at h
      split at h
      · cases h
      · rw [if_pos rfl] at h
        simp only [Out.pure_eq, Out.ok.injEq, Prod.mk.injEq] at h
        obtain ⟨rfl, rfl⟩ := h
        refine ⟨hs1, ⟨_, k1, fun y => ?_⟩, [⟨c, bufs n, srcElem P D T⟩], ?_, ?_⟩
        · by_cases hy : y = T.top
          · simp [hy, tops]
          · simp [hy, tops]
        · exact .cons h1 (by show _ < c.limit; omega) (by show _ + c.limit < _; omega) (.nil _)
        · exact LogOps.cons rfl k rfl ⟨rfl, fun i hi => absurd hi (by simp)⟩
    | T2 :: Ts, hL, hm, ha, hnd, hb', hq', hd =>
      simp only [tops, List.map_cons, List.cons_append, Links] at hL
      have hne : T2.top ≠ a := fun e => ha (by simp [tops, e])
      rw [hL.1.1] at h
      split at h
      · cases h
      · rw [if_neg (by omega)] at h
        have hsz1 := writeLoop_size h
        have hnd2 : T.top ∉ tops (T2 :: Ts) ∧ (tops (T2 :: Ts)).Nodup := by
          have : tops (T :: T2 :: Ts) = T.top :: tops (T2 :: Ts) := rfl
          rw [this, List.nodup_cons] at hnd
          exact hnd
        obtain ⟨i1, ⟨fl', i2, i3⟩, ops, i4, i5⟩ := write_spec hr Ts T2 n P1 Q _ f1 g hs1 k1 (by simpa [tops] using hL.2)
          (fun x hx => hm x (by simp only [tops, List.map_cons] at hx ⊢; exact List.mem_cons_of_mem _ hx))
          (fun h' => ha (by simp only [tops, List.map_cons] at h' ⊢; exact List.mem_cons_of_mem _ h')) hnd2.2 hb'.2 hq'.2 (by omega) h (by omega) hsz
        refine ⟨i1, ⟨fl', i2, fun y => ?_⟩, ⟨c, bufs n, srcElem P D T⟩ :: ops, ?_, ?_⟩
        · rw [i3 y]
          have ht : ∀ y, (y ∈ tops (T :: T2 :: Ts)) ↔ y = T.top ∨ y ∈ tops (T2 :: Ts) := fun y => List.mem_cons
          by_cases hy : y = T.top
          · subst hy
            rw [if_neg hnd2.1, if_pos rfl, if_pos ((ht _).2 (Or.inl rfl))]
          · by_cases hy2 : y ∈ tops (T2 :: Ts)
            · rw [if_pos hy2, if_neg hy, if_pos ((ht _).2 (Or.inr hy2))]
            · rw [if_neg hy2, if_neg hy, if_neg (fun h' => ((ht _).1 h').elim hy hy2)]
        · exact .cons h1 (by show _ < c.limit; omega) (by show _ + c.limit < _; omega) i4
        · exact LogOps.cons rfl k rfl i5

theorem fromElem_perm {t : Nat} {l : List Nat} : (fromElem t l).Perm l := by
  unfold fromElem
  refine List.perm_append_comm.trans ?_
  rw [List.takeWhile_append_dropWhile]

/-- a call of `Write` -/
theorem batch_spec {E : Env} {maxSize : Nat} (h1 : 0x4000 ≤ maxSize) (h2 : maxSize < 2147483648) {P Q : Pool} {D : Doc} (h : Sess E maxSize P D) (hr : ∀ b, D.ready b = true) {e : Nat} {Ts : List ETree} (hb : D.Batch e Ts)
    {c : Ctx} {bufs : Nat → Mem} {deep fuel : Nat} (hd : D.stepsAll Ts ≤ deep) {f g : Img} (hw : P.write c bufs deep fuel f e = .ok (Q, g)) (h16 : 16 + (g.size - f.size) ≤ c.limit) (hsz : g.size + c.limit < 2147483648) :
    Sess E maxSize Q D ∧ ∃ els V fl fl', Keeps P D els V fl ∧ Keeps Q D els V fl' ∧ (∀ y, fl' y = if y ∈ tops Ts then fl y ||| 4 else fl y) ∧ ∃ ops, Grows f ops g ∧ LogOps D els c Ts ops := by
  obtain ⟨els, V, fl, k⟩ := sess_keeps h1 h2 h
  obtain ⟨⟨q, q1, q2⟩, b1, b2⟩ := hb
  obtain ⟨x, y, e1, e2, e3⟩ := split_at q1
  have hp := q2 ▸ fromElem_perm (t := e) (l := D.forest.at' q)
  have hring := k.lists.ring q
  rw [e1, Circle_rot] at hring
  rw [e3] at q2
  match Ts, q2 with
  | [], q2 => simp [tops] at q2
  | T :: Ts, q2 =>
    have hT : T.top = e ∧ tops Ts = y ++ x := by
      have : tops (T :: Ts) = T.top :: tops Ts := rfl
      rw [this] at q2
      exact ⟨(List.cons.inj q2).1, (List.cons.inj q2).2⟩
    have hnd : (tops (T :: Ts)).Nodup := hp.nodup_iff.2 (k.lists.nodup q)
    have hne : e ∉ tops Ts := by
      have : tops (T :: Ts) = T.top :: tops Ts := rfl
      rw [this, List.nodup_cons, hT.1] at hnd
      exact hnd.1
    have hL : Links (V 8) (V 12) (tops (T :: Ts) ++ [e]) := by
      rw [q2]; exact hring
    unfold Pool.write at hw
    rw [← hT.1] at hw
    obtain ⟨i1, ⟨fl', i2, i3⟩, i4⟩ := write_spec (a := T.top) hr Ts T fuel P Q fl f g h k (hT.1 ▸ hL) (fun z hz => (k.lists.mem z).1 ⟨q, hp.mem_iff.1 hz⟩) (hT.1 ▸ hne) hnd b1 b2 hd hw h16 hsz
    exact ⟨i1, els, V, fl, fl', k, i2, i3, i4⟩

theorem BelowAll_get {D : Doc} : ∀ {Ts : List ETree} {i : Nat} (h : i < Ts.length), D.BelowAll Ts → D.Below Ts[i]
  | T :: Ts, 0, _, hb => by unfold Doc.BelowAll at hb; exact hb.1
  | T :: Ts, i+1, h, hb => by
    unfold Doc.BelowAll at hb
    exact BelowAll_get (Ts := Ts) (by simpa using h) hb.2

theorem EveryAll_get {D : Doc} {p q : Nat → Prop} : ∀ {Ts : List ETree} {i : Nat} (h : i < Ts.length), D.EveryAll p q Ts → D.Every p q Ts[i]
  | T :: Ts, 0, _, hb => by unfold Doc.EveryAll at hb; exact hb.1
  | T :: Ts, i+1, h, hb => by
    unfold Doc.EveryAll at hb
    exact EveryAll_get (Ts := Ts) (by simpa using h) hb.2

theorem elemsOf_get {D : Doc} : ∀ {Ts : List ETree} {i : Nat} (h : i < Ts.length) (h' : i < (D.elemsOf Ts).length), (D.elemsOf Ts)[i] = D.elemOf Ts[i]
  | T :: Ts, 0, _, _ => by simp only [Doc.elemsOf, List.getElem_cons_zero]
  | T :: Ts, i+1, h, h' => by
    simp only [Doc.elemsOf, List.getElem_cons_succ]
    exact elemsOf_get (by simpa using h) _

/-- the appends of a batch can be read -/
theorem fits_appendable {D : Doc} {els : List Nat} {c : Ctx} {Ts : List ETree} {ops : List AppendOp} (h : LogOps D els c Ts ops) (hm : ∀ x ∈ tops Ts, x ∈ els) (hb : D.BelowAll Ts) (hq : D.EveryAll D.storedElem D.storedAttr Ts)
    (hflt : ∀ s, (c.flt s).length = 4) {f : Img} {r : Rd} (ht : ∀ s ∈ D.syms true, s.type ≠ UNKNOWN → TagOk f r c s.name) (ht' : TagOk f r c (b8 "et-tecera"))
    (hp : ∀ s ∈ D.syms false, s.type ≠ UNKNOWN → ParOk f r c s.name) : ∀ op ∈ ops, Appendable f r op := by
  intro op hop
  obtain ⟨i, hi, rfl⟩ := List.mem_iff_getElem.1 hop
  have hi' : i < Ts.length := h.1 ▸ hi
  obtain ⟨h1, P, V, fl, k, h2⟩ := h.2 i hi hi'
  have hb1 := BelowAll_get hi' hb
  have hq1 := EveryAll_get hi' hq
  refine ⟨by rw [h1]; exact hflt, ?_, ?_⟩
  · rw [h2]
    exact srcElem_ok k _ _ hb1 (hm _ (List.mem_map.2 ⟨_, List.getElem_mem hi', rfl⟩)) hq1
  · rw [h1, h2]
    exact srcElem_names ht ht' hp _ hq1

theorem fits_reads {D : Doc} {els : List Nat} {c : Ctx} {Ts : List ETree} {ops : List AppendOp} (h : LogOps D els c Ts ops) (hm : ∀ x ∈ tops Ts, x ∈ els) (hb : D.BelowAll Ts) (hq : D.EveryAll D.storedElem D.storedAttr Ts)
    {f : Img} {r : Rd} {pt : BStr → XBT} {zs : List Int} (hz : ReadsOps f r ops zs) : ReadsEach c.flt pt f r (D.elemsOf Ts) zs := by
  refine ⟨by rw [elemsOf_length, ← h.1, hz.1], fun i hi hi' => ?_⟩
  have hT : i < Ts.length := by rw [elemsOf_length] at hi; exact hi
  have ho : i < ops.length := h.1 ▸ hT
  obtain ⟨h1, P, V, fl, k, h2⟩ := h.2 i ho hT
  have := hz.2 i ho hi'
  rw [h1, h2] at this
  rw [elemsOf_get hT]
  exact reads_src k _ _ (BelowAll_get hT hb) (hm _ (List.mem_map.2 ⟨_, List.getElem_mem hT, rfl⟩)) (EveryAll_get hT hq) this

theorem Spec.Grows.append {f g h : Img} {a b : List AppendOp} (h1 : Grows f a g) (h2 : Grows g b h) : Grows f (a ++ b) h := by
  induction h1 with
  | nil _ => exact h2
  | cons a1 a2 a3 _ ih => exact .cons a1 a2 a3 (ih h2)

theorem readsOps_append {f : Img} {r : Rd} {a b : List AppendOp} {zs : List Int} (h : ReadsOps f r (a ++ b) zs) : ReadsOps f r a (zs.take a.length) ∧ ReadsOps f r b (zs.drop a.length) := by
  have hl : zs.length = a.length + b.length := by rw [h.1, List.length_append]
  refine ⟨⟨by rw [List.length_take]; omega, fun i hi hi' => ?_⟩, ⟨by rw [List.length_drop]; omega, fun i hi hi' => ?_⟩⟩
  · have := h.2 i (by rw [List.length_append]; omega) (by omega)
    rw [List.getElem_append_left hi] at this
    rw [List.getElem_take]; exact this
  · have := h.2 (a.length + i) (by rw [List.length_append]; omega) (by omega)
    rw [List.getElem_append_right (by omega)] at this
    rw [List.getElem_drop]
    simpa using this

theorem readsEach_append {flt : CStr → List UInt8} {pt : BStr → XBT} {f : Img} {r : Rd} {a b : List Elem} {ys zs : List Int} (h1 : ReadsEach flt pt f r a ys) (h2 : ReadsEach flt pt f r b zs) :
    ReadsEach flt pt f r (a ++ b) (ys ++ zs) := by
  refine ⟨by simp [h1.1, h2.1], fun i hi hi' => ?_⟩
  by_cases hia : i < a.length
  · rw [List.getElem_append_left hia, List.getElem_append_left (by rw [h1.1]; exact hia)]
    exact h1.2 i hia _
  · have hl := h1.1
    rw [List.getElem_append_right (by omega), List.getElem_append_right (by omega)]
    have := h2.2 (i - a.length) (by rw [List.length_append] at hi; omega) (by rw [List.length_append] at hi'; omega)
    simp only [hl]
    exact this

/-- any number of calls of `Write` -/
theorem batches_spec {E : Env} {maxSize : Nat} (h1 : 0x4000 ≤ maxSize) (h2 : maxSize < 2147483648) {c : Ctx} {syms : Bool → List Sym} {f g : Img} {es : List Elem} (h : Batches E maxSize c syms f es g) (hflt : ∀ s, (c.flt s).length = 4)
    {f0 : Img} {r : Rd} (ht : ∀ s ∈ syms true, s.type ≠ UNKNOWN → TagOk f0 r c s.name) (ht' : TagOk f0 r c (b8 "et-tecera")) (hp : ∀ s ∈ syms false, s.type ≠ UNKNOWN → ParOk f0 r c s.name) :
    ∃ ops, Grows f ops g ∧ (∀ op ∈ ops, Appendable f0 r op) ∧ ∀ (x : Img) (pt : BStr → XBT) (zs : List Int), ReadsOps x r ops zs → ReadsEach c.flt pt x r es zs := by
  induction h with
  | none f => exact ⟨[], .nil _, by simp, fun x pt zs hz => ⟨hz.1, fun i hi => absurd hi (by simp)⟩⟩
  | @write P Q D e Ts bufs deep fuel f g h es hs hr hsy hb hd hw h16 hsz _ ih =>
    obtain ⟨ops2, o1, o2, o3⟩ := ih
    obtain ⟨-, els, V, fl, fl', k, -, -, ops, g1, g2⟩ := batch_spec h1 h2 hs hr hb hd hw h16 hsz
    obtain ⟨⟨q, q1, q2⟩, b1, b2⟩ := hb
    have hm : ∀ x ∈ tops Ts, x ∈ els := fun x hx => (k.lists.mem x).1 ⟨q, fromElem_perm.mem_iff.1 (q2 ▸ hx)⟩
    have hap := fits_appendable g2 hm b1 b2 hflt (f := f0) (r := r) (by rw [hsy]; exact ht) ht' (by rw [hsy]; exact hp)
    refine ⟨ops ++ ops2, g1.append o1, fun op ho => (List.mem_append.1 ho).elim (hap op) (o2 op), fun x pt zs hz => ?_⟩
    obtain ⟨z1, z2⟩ := readsOps_append hz
    have := readsEach_append (fits_reads g2 hm b1 b2 (pt := pt) z1) (o3 x pt _ z2)
    rwa [List.take_append_drop] at this

end BX
