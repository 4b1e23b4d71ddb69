import Verif.Props.Store
namespace BX
open XBT Spec

theorem StoredItem.move {f g : Img} {x stop : Nat} {tag : Int} {t : SymTab} (h : StoredItem f x stop tag t) (hs : g.size < 2147483648) (hin : stop ≤ g.size)
    (hag : ∀ a, x ≤ a → a < aa stop → ¬ (x + 8 ≤ a ∧ a < x + 12) → g.mem a = f.mem a) (hln : Has g.mem (x + 8) (le32 ((aa stop : Int) - x))) : StoredItem g x stop tag t := by
  have hr := h.st.refs_le
  have hge := aa_ge stop
  have k : ∀ a bs, x ≤ a → a + bs.length ≤ stop → (a + bs.length ≤ x + 8 ∨ x + 12 ≤ a) → Has f.mem a bs → Has g.mem a bs := by
    intro a bs h1 h2 h3 h4
    exact h4.congr (fun i i1 i2 => hag i (by omega) (by omega) (by omega))
  refine ⟨h.al, ⟨hs, hin, hr, ?_⟩, ?_, ?_, ?_, hln, ?_, ?_, ?_, ?_, ?_, ?_, ?_, ?_⟩
  · intro i hi
    obtain ⟨w, w1, w2, w3, w4, w5⟩ := h.st.sym i hi
    refine ⟨w, w1, w2, k _ _ (by omega) (by lens; omega) (by lens; omega) w3, k _ _ (by omega) (by lens; omega) (by lens; omega) w4,
      k _ _ (by omega) (by lens; omega) (by lens; omega) w5⟩
  · exact k _ _ (by omega) (by lens; omega) (by lens; omega) h.nm
  · exact k _ _ (by omega) (by lens; omega) (by lens; omega) h.pc
  · exact k _ _ (by omega) (by lens; omega) (by lens; omega) h.cc
  · exact k _ _ (by omega) (by lens; omega) (by lens; omega) h.n1
  · exact k _ _ (by omega) (by lens; omega) (by lens; omega) h.t1
  · exact k _ _ (by omega) (by lens; omega) (by lens; omega) h.d1
  · exact k _ _ (by omega) (by lens; omega) (by lens; omega) h.n2
  · exact k _ _ (by omega) (by lens; omega) (by lens; omega) h.t2
  · exact k _ _ (by omega) (by lens; omega) (by lens; omega) h.d2
  · exact k _ _ (by omega) (by lens; omega) (by lens; omega) h.vt
  · exact k _ _ (by omega) (by lens; omega) (by lens; omega) h.sz

/-- the items of a file written by `FillData`; `t` is the root element -/
def fileTree (len x1 x2 x3 : Nat) (t : IT) : IT :=
  .mk 0 len 4 [.mk x1 (x2 - x1) 2 [], .mk x2 (x3 - x2) 2 [], .mk x3 (len - x3) 0 [t]]

theorem fileTree_nodes (len x1 x2 x3 : Nat) (t : IT) : (fileTree len x1 x2 x3 t).nodes =
    fileTree len x1 x2 x3 t :: .mk x1 (x2 - x1) 2 [] :: .mk x2 (x3 - x2) 2 [] :: .mk x3 (len - x3) 0 [t] :: t.nodes := by
  unfold fileTree
  simp [IT.nodes, nodesL]

theorem Front.treeAt {f : Img} {c : Ctx} {filename : BStr} {len x1 s1 x2 s2 x3 : Nat} (h : Front f c filename len x1 s1 x2 s2 x3 (x3 + 20) ((len : Int) - x3))
    {t : IT} (t1 : t.x = x3 + 20) (t2 : t.stop = len) (t3 : At f.mem t) : At f.mem (fileTree len x1 x2 x3 t) := by
  have hs := h.small
  have hi := h.inside
  have hl := h.lo
  have hr := h.rpos
  have i1 := h.tab1.st.refs_le
  have i2 := h.tab2.st.refs_le
  have hx12 := h.x12
  have hx23 := h.x23
  have g1 := aa_ge s1
  have g2 := aa_ge s2
  have m2 := aa_mod s1
  have m3 := aa_mod s2
  have m1 := h.tab1.al
  unfold fileTree
  simp only [At, AtKids, IT.own, IT.stop, List.length_cons, List.length_nil]
  rw [t1]
  simp only [IT.x, IT.len]
  have e2 : x1 + (x2 - x1) = x2 := by omega
  have e3 : x2 + (x3 - x2) = x3 := by omega
  have e1 : 0 + (x1 - 0) = x1 := by omega
  rw [e1, e2, e3, show x3 + (x3 + 20 - x3) = x3 + 20 by omega, show x3 + (len - x3) = len by omega, aa_of_mod (by omega), aa_of_mod (by omega), aa_of_mod (by omega), aa_of_mod (by omega)]
  have l1 := h.tab1.ln
  have l2 := h.tab2.ln
  rw [← hx12] at l1
  rw [← hx23] at l2
  refine ⟨trivial, by omega, by omega, by omega, h.head.pc, h.head.cc, h.head.ln, ?_, rfl, ⟨m1, by omega, by omega, by omega, h.tab1.pc, h.tab1.cc, ?_, trivial⟩,
    ?_, rfl, ⟨by omega, by omega, by omega, by omega, h.tab2.pc, h.tab2.cc, ?_, trivial⟩,
    ?_, rfl, ⟨by omega, by omega, by omega, by omega, h.pay.pc, h.pay.cc, ?_, h.pc, rfl, t3, ?_⟩, by omega⟩
  · simpa using h.c1
  · rw [show ((x2 - x1 : Nat) : Int) = (x2 : Int) - x1 by omega]; exact l1
  · simpa using h.c2
  · rw [show ((x3 - x2 : Nat) : Int) = (x3 : Int) - x2 by omega]; exact l2
  · simpa using h.c3
  · rw [show ((len - x3 : Nat) : Int) = (len : Int) - x3 by omega]; exact h.pay.ln
  · change x3 + 20 + t.len = len
    unfold IT.stop at t2; omega

/-- an item with another name has other bytes -/
theorem bytes_ne {m : Mem} {a b : IT} {i j : Int} (ha : Has m a.x (leN 2 (toU 16 i))) (hb : Has m b.x (leN 2 (toU 16 j))) (hi : -32768 ≤ i ∧ i ≤ 32767)
    (hj : -32768 ≤ j ∧ j ≤ 32767) (hla : 12 ≤ a.len) (hij : i ≠ j) : a.bytes m ≠ b.bytes m := by
  intro h
  obtain ⟨hl, hb2⟩ := bytes_eq h
  have h1 : Has m b.x (leN 2 (toU 16 i)) := ha.move (fun k hk => by rw [leN_length] at hk; exact (hb2 k (by omega)).symm)
  exact hij (le16_inj hi hj (h1.inj hb (by simp [leN_length])))

/-- ids of tags that cannot be mistaken for the reserved items of a file -/
def TagId (c : Ctx) (s : BStr) : Prop := (-1 ≤ c.tags.find (some s) ∨ c.tags.find (some s) = -9) ∧ c.tags.find (some s) ≤ 32767

theorem Front.named {f : Img} {c : Ctx} {filename : BStr} {len x1 s1 x2 s2 x3 x4 : Nat} {plen : Int} (h : Front f c filename len x1 s1 x2 s2 x3 x4 plen) {t : IT} {e : Elem}
    (t3 : Fits c f.mem e t) (hid : NamesIn (TagId c) (fun _ => True) e) : Named f.mem (fileTree len x1 x2 x3 t) := by
  intro n hn
  rw [fileTree_nodes] at hn
  simp only [List.mem_cons] at hn
  rcases hn with rfl | rfl | rfl | rfl | hn
  · exact ⟨-2, by omega, by omega, by omega, by omega, h.head.nm⟩
  · exact ⟨-3, by omega, by omega, by omega, by omega, h.tab1.nm⟩
  · exact ⟨-4, by omega, by omega, by omega, by omega, h.tab2.nm⟩
  · exact ⟨-6, by omega, by omega, by omega, by omega, h.pay.nm⟩
  · exact Fits.named e t t3 (NamesIn.mono (fun s hs => by unfold TagId at hs; omega) (fun _ h => h) e hid) n hn

theorem Fits.name {c : Ctx} {m : Mem} {e : Elem} {t : IT} (h : Fits c m e t) (hid : NamesIn (TagId c) (fun _ => True) e) :
    ∃ i : Int, (-1 ≤ i ∨ i = -9) ∧ i ≤ 32767 ∧ Has m t.x (leN 2 (toU 16 i)) := by
  obtain ⟨name, value, params, children⟩ := e
  unfold Fits at h
  unfold NamesIn at hid
  exact ⟨_, hid.1.1, hid.1.2, h.1.nm⟩

mutual
theorem Fits.ids {c : Ctx} {m : Mem} {P : Int → Prop} : ∀ (e : Elem) (t : IT), Fits c m e t → NamesIn (fun s => P (c.tags.find (some s))) (fun _ => True) e →
    ∀ n ∈ t.nodes, ∃ i, P i ∧ Has m n.x (leN 2 (toU 16 i))
  | .mk name value params children, t, h, hn => by
    unfold Fits at h
    unfold NamesIn at hn
    intro n hmem
    rcases mem_nodes.1 hmem with rfl | ⟨k, k1, k2⟩
    · exact ⟨_, hn.1, h.1.nm⟩
    · exact FitsAll.ids children t.kids h.2 hn.2.2 k k1 n k2
theorem FitsAll.ids {c : Ctx} {m : Mem} {P : Int → Prop} : ∀ (es : List Elem) (ks : List IT), FitsAll c m es ks →
    NamesInAll (fun s => P (c.tags.find (some s))) (fun _ => True) es → ∀ k ∈ ks, ∀ n ∈ k.nodes, ∃ i, P i ∧ Has m n.x (leN 2 (toU 16 i))
  | [], [], _, _ => by simp
  | e :: es, k :: ks, h, hn => by
    unfold FitsAll at h
    unfold NamesInAll at hn
    intro k' hk'
    rcases List.mem_cons.1 hk' with rfl | hk'
    · exact Fits.ids e _ h.1 hn.1
    · exact FitsAll.ids es ks h.2 hn.2 k' hk'
  | [], _ :: _, h, _ => by unfold FitsAll at h; exact h.elim
  | _ :: _, [], h, _ => by unfold FitsAll at h; exact h.elim
end

/-- items with the bytes of an element do not lie before the root element -/
theorem Front.first {f : Img} {c : Ctx} {filename : BStr} {len x1 s1 x2 s2 x3 x4 : Nat} {plen : Int} (h : Front f c filename len x1 s1 x2 s2 x3 x4 plen) {t : IT} {e : Elem}
    (t3 : At f.mem t) (t4 : Fits c f.mem e t) (hid : NamesIn (TagId c) (fun _ => True) e) :
    ∀ n ∈ (fileTree len x1 x2 x3 t).nodes, ∀ n' ∈ t.nodes, n.bytes f.mem = n'.bytes f.mem → t.x ≤ n.x := by
  intro n hn n' hn' hb
  obtain ⟨i, i1, i2⟩ := Fits.ids (P := fun i => (-1 ≤ i ∨ i = -9) ∧ i ≤ 32767) e t t4 hid n' hn'
  have hl := (At.inside t t3 n' hn').1.len_ge.1
  rw [fileTree_nodes] at hn
  simp only [List.mem_cons] at hn
  rcases hn with rfl | rfl | rfl | rfl | hn
  · exact absurd hb.symm (bytes_ne i2 h.head.nm (by omega) (by omega) hl (by omega))
  · exact absurd hb.symm (bytes_ne i2 h.tab1.nm (by omega) (by omega) hl (by omega))
  · exact absurd hb.symm (bytes_ne i2 h.tab2.nm (by omega) (by omega) hl (by omega))
  · exact absurd hb.symm (bytes_ne i2 h.pay.nm (by omega) (by omega) hl (by omega))
  · exact (At.inside t t3 n hn).2.1

set_option maxHeartbeats 1000000 in
/-- the front of the packed file -/
theorem Front.packed {f : Img} {c : Ctx} {filename : BStr} {len x1 s1 x2 s2 x3 : Nat} (h : Front f c filename len x1 s1 x2 s2 x3 (x3 + 20) ((len : Int) - x3))
    {t : IT} {e : Elem} (t1 : t.x = x3 + 20) (t2 : t.stop = len) (t3 : At f.mem t) (t4 : Fits c f.mem e t) (hid : NamesIn (TagId c) (fun _ => True) e)
    {M : Mem} {len' : Nat} {loc : Nat → Nat} (hp : PackedAs f.mem (fileTree len x1 x2 x3 t) M len' loc) {g : Img} (hg : g.size < 2147483648) (hgl : len' ≤ g.size)
    (hgm : g.mem = M) : ∃ plen, Front g c filename len' x1 s1 x2 s2 x3 (loc t.x) plen := by
  subst hgm
  have hT := h.treeAt t1 t2 t3
  have hs := h.small
  have hi := h.inside
  have hl := h.lo
  have hr := h.rpos
  have i1 := h.tab1.st.refs_le
  have i2 := h.tab2.st.refs_le
  have hx12 := h.x12
  have hx23 := h.x23
  have g1 := aa_ge s1
  have g2 := aa_ge s2
  have tl := t3.len_ge
  generalize hTT : fileTree len x1 x2 x3 t = T at *
  have hnodes : T.nodes = T :: .mk x1 (x2 - x1) 2 [] :: .mk x2 (x3 - x2) 2 [] :: .mk x3 (len - x3) 0 [t] :: t.nodes := by
    rw [← hTT]; exact fileTree_nodes _ _ _ _ _
  have hx : T.x = 0 := by rw [← hTT]; rfl
  have htx : ∀ n ∈ t.nodes, x3 + 20 ≤ n.x := fun n hn => by
    have := (At.inside t t3 n hn).2.1
    omega
  have b01 : T.bytes f.mem ≠ (IT.mk x1 (x2 - x1) 2 []).bytes f.mem :=
    bytes_ne (by rw [hx]; exact h.head.nm) h.tab1.nm (by omega) (by omega) (by rw [← hTT]; show 12 ≤ len; omega) (by omega)
  have b02 : T.bytes f.mem ≠ (IT.mk x2 (x3 - x2) 2 []).bytes f.mem :=
    bytes_ne (by rw [hx]; exact h.head.nm) h.tab2.nm (by omega) (by omega) (by rw [← hTT]; show 12 ≤ len; omega) (by omega)
  have b03 : T.bytes f.mem ≠ (IT.mk x3 (len - x3) 0 [t]).bytes f.mem :=
    bytes_ne (by rw [hx]; exact h.head.nm) h.pay.nm (by omega) (by omega) (by rw [← hTT]; show 12 ≤ len; omega) (by omega)
  have b12 : (IT.mk x1 (x2 - x1) 2 []).bytes f.mem ≠ (IT.mk x2 (x3 - x2) 2 []).bytes f.mem :=
    bytes_ne h.tab1.nm h.tab2.nm (by omega) (by omega) (by show 12 ≤ x2 - x1; omega) (by omega)
  have b13 : (IT.mk x1 (x2 - x1) 2 []).bytes f.mem ≠ (IT.mk x3 (len - x3) 0 [t]).bytes f.mem :=
    bytes_ne h.tab1.nm h.pay.nm (by omega) (by omega) (by show 12 ≤ x2 - x1; omega) (by omega)
  have b23 : (IT.mk x2 (x3 - x2) 2 []).bytes f.mem ≠ (IT.mk x3 (len - x3) 0 [t]).bytes f.mem :=
    bytes_ne h.tab2.nm h.pay.nm (by omega) (by omega) (by show 12 ≤ x3 - x2; omega) (by omega)
  have hf1 : ∀ n ∈ T.nodes, n.bytes f.mem = (IT.mk x1 (x2 - x1) 2 []).bytes f.mem → x1 ≤ n.x := by
    intro n hn hb
    rw [hnodes] at hn
    simp only [List.mem_cons] at hn
    rcases hn with rfl | rfl | rfl | rfl | hn
    · exact absurd hb b01
    · exact Nat.le_refl _
    · show x1 ≤ x2; omega
    · show x1 ≤ x3; omega
    · have := htx n hn; omega
  have hf2 : ∀ n ∈ T.nodes, n.bytes f.mem = (IT.mk x2 (x3 - x2) 2 []).bytes f.mem → x2 ≤ n.x := by
    intro n hn hb
    rw [hnodes] at hn
    simp only [List.mem_cons] at hn
    rcases hn with rfl | rfl | rfl | rfl | hn
    · exact absurd hb b02
    · exact absurd hb b12
    · exact Nat.le_refl _
    · show x2 ≤ x3; omega
    · have := htx n hn; omega
  have hf3 : ∀ n ∈ T.nodes, n.bytes f.mem = (IT.mk x3 (len - x3) 0 [t]).bytes f.mem → x3 ≤ n.x := by
    intro n hn hb
    rw [hnodes] at hn
    simp only [List.mem_cons] at hn
    rcases hn with rfl | rfl | rfl | rfl | hn
    · exact absurd hb b03
    · exact absurd hb b13
    · exact absurd hb b23
    · exact Nat.le_refl _
    · have := htx n hn; omega
  obtain ⟨it, it1, it2, it3⟩ := t4.name hid
  have hf4 : ∀ n ∈ T.nodes, n.bytes f.mem = t.bytes f.mem → t.x ≤ n.x := by
    intro n hn hb
    rw [hnodes] at hn
    simp only [List.mem_cons] at hn
    rcases hn with rfl | rfl | rfl | rfl | hn
    · exact absurd hb.symm (bytes_ne it3 (by rw [hx]; exact h.head.nm) (by omega) (by omega) tl.1 (by omega))
    · exact absurd hb.symm (bytes_ne it3 h.tab1.nm (by omega) (by omega) tl.1 (by omega))
    · exact absurd hb.symm (bytes_ne it3 h.tab2.nm (by omega) (by omega) tl.1 (by omega))
    · exact absurd hb.symm (bytes_ne it3 h.pay.nm (by omega) (by omega) tl.1 (by omega))
    · have := htx n hn; omega
  have hk : T.kids = [.mk x1 (x2 - x1) 2 [], .mk x2 (x3 - x2) 2 [], .mk x3 (len - x3) 0 [t]] := by rw [← hTT]; rfl
  have st : ∀ (k0 k1 k2 : IT), T.kids = [k0, k1, k2] → (k0.kids = [] ∧ ∀ n ∈ T.nodes, n.bytes f.mem = k0.bytes f.mem → k0.x ≤ n.x) →
      (k1.kids = [] ∧ ∀ n ∈ T.nodes, n.bytes f.mem = k1.bytes f.mem → k1.x ≤ n.x) → (∀ n ∈ T.nodes, n.bytes f.mem = k2.bytes f.mem → k2.x ≤ n.x) →
      loc k0.x = k0.x ∧ loc k1.x = k1.x ∧ loc k2.x = k2.x := by
    intro k0 k1 k2 he h0 h1 h2
    have hst' : ∀ ks : List IT, T.kids = ks → ∀ j (hj : j < ks.length), (∀ i (hi : i < j), ks[i].kids = [] ∧ ∀ n ∈ T.nodes, n.bytes f.mem = ks[i].bytes f.mem → ks[i].x ≤ n.x) →
        (∀ n ∈ T.nodes, n.bytes f.mem = ks[j].bytes f.mem → ks[j].x ≤ n.x) → loc ks[j].x = ks[j].x := by
      rintro _ rfl
      exact hp.stays
    have hst := hst' _ he
    refine ⟨?_, ?_, ?_⟩
    · exact hst 0 (by simp) (fun i hi => by omega) h0.2
    · refine hst 1 (by simp) (fun i hi => ?_) h1.2
      have : i = 0 := by omega
      subst this; exact h0
    · refine hst 2 (by simp) (fun i hi => ?_) h2
      have : i = 0 ∨ i = 1 := by omega
      rcases this with rfl | rfl
      · exact h0
      · exact h1
  obtain ⟨p1, p2, p3⟩ := st _ _ _ hk ⟨rfl, hf1⟩ ⟨rfl, hf2⟩ hf3
  change loc x1 = x1 at p1
  change loc x2 = x2 at p2
  change loc x3 = x3 at p3
  have mem0 : T ∈ T.nodes := T.self_mem
  have mem1 : (IT.mk x1 (x2 - x1) 2 []) ∈ T.nodes := by rw [hnodes]; simp
  have mem2 : (IT.mk x2 (x3 - x2) 2 []) ∈ T.nodes := by rw [hnodes]; simp
  have mem3 : (IT.mk x3 (len - x3) 0 [t]) ∈ T.nodes := by rw [hnodes]; simp
  have mem4 : t ∈ T.nodes := by rw [hnodes]; simp [t.self_mem]
  have ord : loc x3 + (IT.mk x3 (len - x3) 0 [t]).own ≤ loc t.x := hp.order _ mem3 _ mem4 (by show x3 < t.x; omega) hf4
  have hroot := hp.root
  rw [hx] at hroot
  obtain ⟨-, -, r0, c0, -, d0⟩ := hp.copied T mem0
  obtain ⟨-, -, r1, c1, ⟨l1, l11, -, l13, l14⟩, -⟩ := hp.copied _ mem1
  obtain ⟨-, -, r2, c2, ⟨l2, l21, -, l23, l24⟩, -⟩ := hp.copied _ mem2
  obtain ⟨-, -, r3, c3, ⟨l3, l31, -, l33, -⟩, d3⟩ := hp.copied _ mem3
  obtain ⟨-, -, r4, -, -, -⟩ := hp.copied _ mem4
  change Has g.mem (loc x1 + 8) _ at l11
  change Has g.mem (loc x2 + 8) _ at l21
  change Has g.mem (loc x3 + 8) _ at l31
  change loc x1 + l1 ≤ len' at l13
  change loc x2 + l2 ≤ len' at l23
  change loc x3 + l3 ≤ len' at l33
  change loc x1 + (x2 - x1) ≤ len' at r1
  change loc x2 + (x3 - x2) ≤ len' at r2
  change loc x3 + (t.x - x3) ≤ len' at r3
  change ∀ i, i < x2 - x1 → ¬ (8 ≤ i ∧ i < 12) → ¬ (12 + 8 * 2 ≤ i ∧ i < 12 + 8 * 2 + 4 * 0) → g.mem (loc x1 + i) = f.mem (x1 + i) at c1
  change ∀ i, i < x3 - x2 → ¬ (8 ≤ i ∧ i < 12) → ¬ (12 + 8 * 2 ≤ i ∧ i < 12 + 8 * 2 + 4 * 0) → g.mem (loc x2 + i) = f.mem (x2 + i) at c2
  change ∀ i, i < t.x - x3 → ¬ (8 ≤ i ∧ i < 12) → ¬ (12 + 8 * 0 ≤ i ∧ i < 12 + 8 * 0 + 4 * 1) → g.mem (loc x3 + i) = f.mem (x3 + i) at c3
  change loc x3 + (t.x - x3) ≤ loc t.x at ord
  have ho : T.own = x1 := by rw [← hTT]; show x1 - 0 = x1; omega
  have hpc : T.pc = 4 := by rw [← hTT]; rfl
  have hkl : T.kids.length = 3 := by rw [hk]; rfl
  rw [hx, hroot, ho] at r0
  rw [hx, hroot, ho, hpc, hkl] at c0
  have hto := t3.own_le
  rw [p1] at r1 c1 l11 l13
  rw [p2] at r2 c2 l21 l23
  rw [p3] at r3 c3 l31 l33 ord
  have k0 : ∀ a bs, a + bs.length ≤ x1 → (a + bs.length ≤ 8 ∨ 12 ≤ a) → (a + bs.length ≤ 44 ∨ 56 ≤ a) → Has f.mem a bs → Has g.mem a bs := by
    intro a bs h1 h2 h3 h4
    refine h4.congr (fun i i1 i2 => ?_)
    have := c0 i (by omega) (by omega) (by omega)
    rwa [Nat.zero_add] at this
  have k3 : ∀ a bs, x3 ≤ a → a + bs.length ≤ x3 + 20 → (a + bs.length ≤ x3 + 8 ∨ x3 + 16 ≤ a) → Has f.mem a bs → Has g.mem a bs := by
    intro a bs h1 h2 h3 h4
    refine h4.congr (fun i i1 i2 => ?_)
    have := c3 (i - x3) (by omega) (by omega) (by omega)
    rwa [show x3 + (i - x3) = i by omega] at this
  have ptr : ∀ i (y : Nat) (hi : i < T.kids.length), T.kids[i].x = y → Has g.mem (44 + 4 * i) (le32 (loc y)) := by
    intro i y hi he
    have := d0 i hi
    rw [hx, hroot, hpc, he] at this
    simpa using this
  refine ⟨l3, ?_⟩
  constructor
  case small => exact hg
  case inside => exact hgl
  case head =>
    refine ⟨k0 _ _ (by lens; omega) (by lens; omega) (by lens; omega) h.head.nm, k0 _ _ (by lens; omega) (by lens; omega) (by lens; omega) h.head.pc,
      k0 _ _ (by lens; omega) (by lens; omega) (by lens; omega) h.head.cc, ?_, by omega⟩
    have := hp.rootLen
    rwa [hx] at this
  case n1 => exact k0 _ _ (by lens; omega) (by lens; omega) (by lens; omega) h.n1
  case t1 => exact k0 _ _ (by lens; omega) (by lens; omega) (by lens; omega) h.t1
  case n2 => exact k0 _ _ (by lens; omega) (by lens; omega) (by lens; omega) h.n2
  case t2 => exact k0 _ _ (by lens; omega) (by lens; omega) (by lens; omega) h.t2
  case d2 => exact k0 _ _ (by lens; omega) (by lens; omega) (by lens; omega) h.d2
  case nm => exact k0 _ _ (by lens; omega) (by lens; omega) (by lens; omega) h.nm
  case c1 => have := ptr 0 x1 (by omega) (by simp only [hk]; rfl); rwa [p1] at this
  case c2 => have := ptr 1 x2 (by omega) (by simp only [hk]; rfl); rwa [p2] at this
  case c3 => have := ptr 2 x3 (by omega) (by simp only [hk]; rfl); rwa [p3] at this
  case lo => exact hl
  case tab1 =>
    refine h.tab1.move hg (by omega) (fun a a1 a2 a3 => ?_) ?_
    · have := c1 (a - x1) (by omega) (by omega) (by omega)
      rwa [show x1 + (a - x1) = a by omega] at this
    · have e : l1 = x2 - x1 := l14 rfl
      change Has g.mem (x1 + 8) (le32 l1) at l11
      rw [e, show ((x2 - x1 : Nat) : Int) = (aa s1 : Int) - x1 by omega] at l11
      exact l11
  case x12 => exact hx12
  case tab2 =>
    refine h.tab2.move hg (by omega) (fun a a1 a2 a3 => ?_) ?_
    · have := c2 (a - x2) (by omega) (by omega) (by omega)
      rwa [show x2 + (a - x2) = a by omega] at this
    · have e : l2 = x3 - x2 := l24 rfl
      change Has g.mem (x2 + 8) (le32 l2) at l21
      rw [e, show ((x3 - x2 : Nat) : Int) = (aa s2 : Int) - x2 by omega] at l21
      exact l21
  case x23 => exact hx23
  case pay =>
    exact ⟨k3 _ _ (by omega) (by lens; omega) (by lens; omega) h.pay.nm, k3 _ _ (by omega) (by lens; omega) (by lens; omega) h.pay.pc,
      k3 _ _ (by omega) (by lens; omega) (by lens; omega) h.pay.cc, l31, by omega⟩
  case pv => exact k3 _ _ (by omega) (by lens; omega) (by lens; omega) h.pv
  case pc =>
    have := d3 0 (by show 0 < 1; omega)
    change Has g.mem (loc x3 + 12 + 8 * 0 + 4 * 0) (le32 ((loc t.x : Int) - loc x3)) at this
    rw [p3] at this
    exact this
  case rpos =>
    obtain ⟨name, value, params, children⟩ := e
    unfold Fits at t4
    have := t4.1.room
    exact ⟨by omega, by omega⟩

end BX
