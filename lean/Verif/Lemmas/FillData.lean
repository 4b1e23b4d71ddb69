import Verif.Lemmas.PackWrite
import Verif.Props.SymStore
namespace BX
open XBT Spec

/-- the pieces of a file written by `FillData` before the root element at `x4` -/
structure Front (f : Img) (c : Ctx) (filename : BStr) (len x1 s1 x2 s2 x3 x4 : Nat) (plen : Int) : Prop where
  small : f.size < 2147483648
  inside : len ≤ f.size
  head : HeadAt f 0 (-2) 4 3 len
  n1 : Has f.mem 12 (leN 2 (toU 16 (-6)))
  t1 : Has f.mem 14 [INT32.code]
  n2 : Has f.mem 20 (leN 2 (toU 16 (-2)))
  t2 : Has f.mem 22 [STRING.code]
  d2 : Has f.mem 24 (le32 57)
  nm : Has f.mem 57 (filename ++ [0])
  c1 : Has f.mem 44 (le32 x1)
  c2 : Has f.mem 48 (le32 x2)
  c3 : Has f.mem 52 (le32 x3)
  lo : 57 + filename.length + 1 + 20 ≤ x1
  tab1 : StoredItem f x1 s1 (-3) c.tags
  x12 : x2 = aa s1
  tab2 : StoredItem f x2 s2 (-4) c.params
  x23 : x3 = aa s2
  pay : HeadAt f x3 (-6) 0 1 plen
  pv : Has f.mem (x3 + 16) [NULL.code]
  pc : Has f.mem (x3 + 12) (le32 ((x4 : Int) - x3))
  rpos : x3 + 20 ≤ x4 ∧ x4 + 12 < len

/-- all pieces of a file written by `FillData` -/
structure Whole (f : Img) (c : Ctx) (e : Elem) (filename : BStr) (len x1 s1 x2 s2 x3 : Nat) : Prop extends
    Front f c filename len x1 s1 x2 s2 x3 (x3 + 20) ((len : Int) - x3) where
  rlen : f.length ((x3 + 20 : Nat) : Int) = .ok ((len : Int) - ((x3 + 20 : Nat) : Int))
  tree : ∃ t : IT, t.x = x3 + 20 ∧ t.stop = len ∧ t.nodes.length = e.count ∧ At f.mem t ∧ Fits c f.mem e t
  laid : Laid f e ((x3 + 20 : Nat) : Int)
  reads : ∀ r, NamesIn (TagOk f r c) (ParOk f r c) e → Reads c.flt c.ptype f r e ((x3 + 20 : Nat) : Int)

set_option maxHeartbeats 2000000 in
theorem fillData_spec {c : Ctx} (hflt : ∀ s, (c.flt s).length = 4) (hlim : c.limit < 2147483648) {filename : BStr} {mtime : Int} {e : Elem} {m : Mem} {m' : Mem} {len : Nat}
    (h : fillData c filename mtime e m = .ok (m', len)) (hok : TreeOk c.ptype e) (hfull : len < c.limit) (f : Img) (hf : f.size < 2147483648)
    (hin : len ≤ f.size) (hag : ∀ a, a < len → f.mem a = m' a) : ∃ x1 s1 x2 s2 x3, Whole f c e filename len x1 s1 x2 s2 x3 := by
  unfold fillData putDesc at h
  obtain ⟨m1, hm1, h⟩ := Out.bind_eq_ok h
  obtain ⟨m2, hm2, h⟩ := Out.bind_eq_ok h
  obtain ⟨m3, hm3, h⟩ := Out.bind_eq_ok h
  obtain ⟨n1, hn1, hm3⟩ := Out.bind_eq_ok hm3
  obtain ⟨n2, hn2, hm3⟩ := Out.bind_eq_ok hm3
  obtain ⟨m4, hm4, h⟩ := Out.bind_eq_ok h
  obtain ⟨n3, hn3, hm4⟩ := Out.bind_eq_ok hm4
  obtain ⟨n4, hn4, hm4⟩ := Out.bind_eq_ok hm4
  obtain ⟨m5, hm5, h⟩ := Out.bind_eq_ok h
  obtain ⟨m6, hm6, h⟩ := Out.bind_eq_ok h
  obtain ⟨n5, hn5, hm6⟩ := Out.bind_eq_ok hm6
  obtain ⟨n6, hn6, hm6⟩ := Out.bind_eq_ok hm6
  obtain ⟨m7, hm7, h⟩ := Out.bind_eq_ok h
  obtain ⟨m8, hm8, h⟩ := Out.bind_eq_ok h
  obtain ⟨n7, hn7, hm8⟩ := Out.bind_eq_ok hm8
  obtain ⟨n8, hn8, hm8⟩ := Out.bind_eq_ok hm8
  obtain ⟨⟨ma, wa, x1⟩, ha, h⟩ := Out.bind_eq_ok h
  obtain ⟨ma', ha', h⟩ := Out.bind_eq_ok h
  obtain ⟨⟨mb, wb, x2⟩, hb, h⟩ := Out.bind_eq_ok h
  obtain ⟨mb', hb', h⟩ := Out.bind_eq_ok h
  obtain ⟨⟨mc, wc, x3⟩, hc, h⟩ := Out.bind_eq_ok h
  obtain ⟨mc', hc', h⟩ := Out.bind_eq_ok h
  obtain ⟨md, hd, h⟩ := Out.bind_eq_ok h
  simp only [Out.pure_eq, Out.ok.injEq, Prod.mk.injEq] at h
  obtain ⟨rfl, rfl⟩ := h
  simp only at ha' hb hb' hc hc' hd hfull hin hag ⊢
  have hge := aa_ge (57 + filename.length + 1)
  generalize aa (57 + filename.length + 1) = wq at *
  obtain ⟨rfl, l1⟩ := put_ok hm1
  obtain ⟨rfl, l2⟩ := put_ok hm2
  obtain ⟨rfl, -⟩ := put_ok hn1
  obtain ⟨rfl, -⟩ := put_ok hn2
  obtain ⟨rfl, -⟩ := put_ok hm3
  obtain ⟨rfl, -⟩ := put_ok hn3
  obtain ⟨rfl, -⟩ := put_ok hn4
  obtain ⟨rfl, -⟩ := put_ok hm4
  obtain ⟨rfl, -⟩ := put_ok hm5
  obtain ⟨rfl, -⟩ := put_ok hn5
  obtain ⟨rfl, -⟩ := put_ok hn6
  obtain ⟨rfl, -⟩ := put_ok hm6
  obtain ⟨rfl, -⟩ := put_ok hm7
  obtain ⟨rfl, -⟩ := put_ok hn7
  obtain ⟨rfl, -⟩ := put_ok hn8
  obtain ⟨rfl, -⟩ := put_ok hm8
  obtain ⟨s1, rfl, rfl, a1, a2, a3, a4⟩ := writeSymbols_spec _ _ _ _ _ _ _ _ ha
  obtain ⟨rfl, -⟩ := put_ok ha'
  obtain ⟨s2, e2, rfl, b1, b2, b3, b4⟩ := writeSymbols_spec _ _ _ _ _ _ _ _ hb
  rw [aa_of_mod (aa_mod s1)] at e2
  subst e2
  obtain ⟨rfl, -⟩ := put_ok hb'
  -- the payload container
  unfold writePayload at hc
  obtain ⟨p1, hp1, hc⟩ := Out.bind_eq_ok hc
  obtain ⟨p2, hp2, hc⟩ := Out.bind_eq_ok hc
  obtain ⟨⟨p3, wp, x4⟩, hp3, hc⟩ := Out.bind_eq_ok hc
  obtain ⟨p4, hp4, hc⟩ := Out.bind_eq_ok hc
  obtain ⟨p5, hp5, hc⟩ := Out.bind_eq_ok hc
  simp only [Out.pure_eq, Out.ok.injEq, Prod.mk.injEq] at hc hp4 hp5
  obtain ⟨rfl, rfl, rfl⟩ := hc
  have hal3 : aa s2 % 4 = 0 := aa_mod s2
  rw [aa_of_mod hal3] at *
  obtain ⟨rfl, -⟩ := put_ok hp1
  obtain ⟨rfl, -⟩ := put_ok hp2
  obtain ⟨rfl, -⟩ := put_ok hp4
  obtain ⟨rfl, -⟩ := put_ok hp5
  obtain ⟨rfl, -⟩ := put_ok hc'
  obtain ⟨rfl, -⟩ := put_ok hd
  obtain ⟨e4, g1⟩ := writeNode_mono e hp3 hok
  have e4' : x4 = aa s2 + 20 := by rw [e4]; unfold aa; omega
  clear e4
  subst e4'
  obtain ⟨w1, w2⟩ := writeNode_spec hflt hlim e hp3 hok hfull
  have gs1 := aa_ge s1
  have gs2 := aa_ge s2
  have gx1 := aa_ge (wq + 20)
  generalize aa (wq + 20) = x1 at *
  generalize hx2 : aa s1 = x2 at *
  generalize hx3 : aa s2 = x3 at *
  -- addresses outside of the fields written late keep their content
  have kp : ∀ a bs, a + bs.length ≤ wp → x3 + 20 ≤ a → Has p3 a bs → Has f.mem a bs := by
    intro a bs h1 h2 h3
    refine Has.congr (m := p3) h3 (fun i i1 i2 => ?_)
    rw [hag i (by omega)]
    rw [memPut_frame _ _ _ _ (by lens; omega), memPut_frame _ _ _ _ (by lens; omega), memPut_frame _ _ _ _ (by lens; omega), memPut_frame _ _ _ _ (by lens; omega)]
  have agp : ∀ i, i < x3 → ¬ (8 ≤ i ∧ i < 12) → ¬ (52 ≤ i ∧ i < 56) → f.mem i = memPut mb 48 (le32 (x2 : Int)) i := by
    intro i i1 i2 i3
    rw [hag i (by omega), memPut_frame _ _ _ _ (by lens; omega), memPut_frame _ _ _ _ (by lens; omega), memPut_frame _ _ _ _ (by lens; omega),
      memPut_frame _ _ _ _ (by lens; omega), w1 i (by omega), memPut_frame _ _ _ _ (by lens; omega), memPut_frame _ _ _ _ (by rw [headBytes_length]; omega)]
  have agb : ∀ i, i < x2 → ¬ (8 ≤ i ∧ i < 12) → ¬ (48 ≤ i ∧ i < 56) → f.mem i = memPut ma 44 (le32 (x1 : Int)) i := by
    intro i i1 i2 i3
    rw [agp i (by omega) i2 (by omega), memPut_frame _ _ _ _ (by lens; omega), b3 i i1]
  have aga : ∀ i, i < x1 → ¬ (8 ≤ i ∧ i < 12) → ¬ (44 ≤ i ∧ i < 56) → f.mem i = ma i := by
    intro i i1 i2 i3
    rw [agb i (by omega) i2 (by omega), memPut_frame _ _ _ _ (by lens; omega)]
  have hd0 := Has.self m 0 (headBytes (-2) 4 3)
  have hd3 := Has.self (memPut mb 48 (le32 (x2 : Int))) x3 (headBytes (-6) 0 1)
  unfold headBytes at hd0 hd3
  rw [Has.append, Has.append] at hd0 hd3
  simp only [leN_length, List.length_append] at hd0 hd3
  have k0 : ∀ a bs, a + bs.length ≤ x1 → (a + bs.length ≤ 8 ∨ 12 ≤ a) → (a + bs.length ≤ 44 ∨ 56 ≤ a) →
      Has (memPut (memPut (memPut (memPut (memPut (memPut (memPut (memPut (memPut (memPut (memPut (memPut (memPut (memPut (memPut (memPut m 0 (headBytes (-2) 4 3)) 56 [NULL.code])
        12 (leN 2 (toU 16 (-6)))) (12 + 2) [INT32.code]) (12 + 4) (le32 256)) 20 (leN 2 (toU 16 (-2)))) (20 + 2) [STRING.code]) (20 + 4) (le32 57)) 57 (filename ++ [0]))
        28 (leN 2 (toU 16 (-3)))) (28 + 2) [SHA1.code]) (28 + 4) (le32 (wq : Int))) wq (List.replicate 20 161)) 36 (leN 2 (toU 16 (-4)))) (36 + 2) [UNIX_TIME.code]) (36 + 4) (le32 mtime)) a bs →
      Has f.mem a bs := by
    intro a bs h1 h2 h3 h4
    refine Has.congr h4 (fun i i1 i2 => ?_)
    rw [aga i (by omega) (by omega) (by omega), a3 i (by omega)]
  have kh : ∀ a bs, Has (memPut m 0 (headBytes (-2) 4 3)) a bs → a + bs.length ≤ 8 → Has f.mem a bs := by
    intro a bs h1 h2
    apply k0 _ _ (by omega) (by omega) (by omega)
    hasput
  have k3 : ∀ a bs, x3 ≤ a → a + bs.length ≤ x3 + 20 → (a + bs.length ≤ x3 + 8 ∨ x3 + 16 ≤ a) →
      Has (memPut (memPut (memPut mb 48 (le32 (x2 : Int))) x3 (headBytes (-6) 0 1)) (x3 + 16) [NULL.code]) a bs → Has f.mem a bs := by
    intro a bs h1 h2 h3 h4
    refine Has.congr h4 (fun i i1 i2 => ?_)
    rw [hag i (by omega), memPut_frame _ _ _ _ (by lens; omega), memPut_frame _ _ _ _ (by lens; omega), memPut_frame _ _ _ _ (by lens; omega),
      memPut_frame _ _ _ _ (by lens; omega), w1 i (by omega)]
  have k3' : ∀ a bs, x3 ≤ a → a + bs.length ≤ x3 + 8 → Has (memPut (memPut mb 48 (le32 (x2 : Int))) x3 (headBytes (-6) 0 1)) a bs → Has f.mem a bs := by
    intro a bs h1 h2 h3
    exact k3 a bs h1 (by omega) (by omega) (h3.frame (by lens; omega))
  obtain ⟨q1, q2, q3⟩ := w2 f hf hin (fun a h1 h2 => by
    rw [hag a (by omega), memPut_frame _ _ _ _ (by lens; omega), memPut_frame _ _ _ _ (by lens; omega), memPut_frame _ _ _ _ (by lens; omega),
      memPut_frame _ _ _ _ (by lens; omega)])
  refine ⟨x1, s1, x2, s2, x3, ?_⟩
  refine { toFront := ?_, rlen := q1, tree := ?_, laid := q2, reads := q3 }
  rotate_left
  · obtain ⟨t, t1, t2, t3, t4⟩ := writeNode_tree hflt hlim e hp3 hok hfull
    refine ⟨t, t1, t2, t3, t4 f.mem (fun a h1 h2 => ?_)⟩
    rw [hag a (by omega), memPut_frame _ _ _ _ (by lens; omega), memPut_frame _ _ _ _ (by lens; omega), memPut_frame _ _ _ _ (by lens; omega),
      memPut_frame _ _ _ _ (by lens; omega)]
  constructor
  case small => exact hf
  case inside => exact hin
  case head =>
    refine ⟨kh _ _ hd0.1.1 (by lens; omega), kh _ _ hd0.1.2 (by lens; omega), kh _ _ hd0.2 (by lens; omega), ?_, by omega⟩
    exact (Has.self _ _ _).congr (fun i i1 i2 => hag i (by lens; omega))
  case n1 => apply k0 _ _ (by lens; omega) (by lens; omega) (by lens; omega); hasput
  case t1 => apply k0 _ _ (by lens; omega) (by lens; omega) (by lens; omega); hasput
  case n2 => apply k0 _ _ (by lens; omega) (by lens; omega) (by lens; omega); hasput
  case t2 => apply k0 _ _ (by lens; omega) (by lens; omega) (by lens; omega); hasput
  case d2 => apply k0 _ _ (by lens; omega) (by lens; omega) (by lens; omega); hasput
  case nm => apply k0 _ _ (by lens; omega) (by lens; omega) (by lens; omega); hasput
  case c1 =>
    refine (Has.self ma 44 (le32 (x1 : Int))).congr (fun i i1 i2 => ?_)
    rw [agb i (by lens; omega) (by omega) (by lens; omega)]
  case c2 =>
    refine (Has.self mb 48 (le32 (x2 : Int))).congr (fun i i1 i2 => ?_)
    rw [agp i (by lens; omega) (by omega) (by lens; omega)]
  case c3 =>
    refine Has.congr (m := memPut (memPut (memPut (memPut p3 (x3 + 12) (le32 (((x3 + 20 : Nat) : Int) - x3))) (x3 + 8) (le32 ((wp : Int) - x3))) 52 (le32 (x3 : Int))) 8 (le32 (wp : Int))) ?_
      (fun i i1 i2 => hag i (by lens; omega))
    hasput
  case lo => omega
  case tab1 =>
    refine a4 f hf (by omega) (fun i i1 i2 => ?_)
    rw [agb i (by omega) (by omega) (by omega), memPut_frame _ _ _ _ (by lens; omega)]
  case x12 => exact hx2.symm
  case tab2 =>
    refine b4 f hf (by omega) (fun i i1 i2 => ?_)
    rw [agp i (by omega) (by omega) (by omega), memPut_frame _ _ _ _ (by lens; omega)]
  case x23 => exact hx3.symm
  case pay =>
    refine ⟨k3' _ _ (by omega) (by lens; omega) hd3.1.1, k3' _ _ (by omega) (by lens; omega) hd3.1.2, k3' _ _ (by omega) (by lens; omega) hd3.2, ?_, by omega⟩
    refine Has.congr (m := memPut (memPut (memPut (memPut p3 (x3 + 12) (le32 (((x3 + 20 : Nat) : Int) - x3))) (x3 + 8) (le32 ((wp : Int) - x3))) 52 (le32 (x3 : Int))) 8 (le32 (wp : Int))) ?_
      (fun i i1 i2 => hag i (by lens; omega))
    hasput
  case pv => exact k3 _ _ (by omega) (by lens; omega) (by omega) (Has.self _ _ _)
  case pc =>
    refine Has.congr (m := memPut (memPut (memPut (memPut p3 (x3 + 12) (le32 (((x3 + 20 : Nat) : Int) - x3))) (x3 + 8) (le32 ((wp : Int) - x3))) 52 (le32 (x3 : Int))) 8 (le32 (wp : Int))) ?_
      (fun i i1 i2 => hag i (by lens; omega))
    hasput
  case rpos => exact ⟨by omega, g1⟩

end BX
