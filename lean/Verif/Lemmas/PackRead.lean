import Verif.Lemmas.PackFile
import Verif.Spec.Pack
namespace BX
open XBT Spec

theorem AttrAt.shift {m M : Mem} {x y i lo hi : Nat} {id : Int} {d : Data} (h : AttrAt m x (x + 12 + 8 * i) lo hi id d) (hlo : x ≤ lo)
    (h1 : ∀ k, k < 8 → M (y + 12 + 8 * i + k) = m (x + 12 + 8 * i + k)) (h2 : ∀ k, lo ≤ x + k → x + k < hi → M (y + k) = m (x + k)) :
    AttrAt M y (y + 12 + 8 * i) (y + (lo - x)) (y + (hi - x)) id d := by
  refine ⟨h.sized, h.notDate, h.nm.move ?_, h.ty.move ?_, ?_⟩
  · intro k hk; rw [leN_length] at hk; exact h1 k (by omega)
  · intro k hk
    simp only [List.length_cons, List.length_nil] at hk
    have := h1 (2 + k) (by omega)
    simpa only [Nat.add_assoc] using this
  · rcases h.data with ⟨h4, hd⟩ | ⟨h4, q, hq, hd, hb⟩
    · have : d.bytes.length = 4 := by have := h.sized; unfold Sized at this; rw [if_pos h4] at this; exact this
      refine Or.inl ⟨h4, hd.move fun k hk => ?_⟩
      have := h1 (4 + k) (by omega)
      simpa only [Nat.add_assoc] using this
    · refine Or.inr ⟨h4, y + (q - x), ?_, ?_, ?_⟩
      · rcases hq with hq | hq
        · exact Or.inl ⟨hq.1, by omega⟩
        · exact Or.inr ⟨by omega, by omega⟩
      · have hqx : x ≤ q := by rcases hq with hq | hq <;> omega
        rw [show ((y + (q - x) : Nat) : Int) - y = (q : Int) - x by omega]
        refine hd.move fun k hk => ?_
        rw [le32_length] at hk
        have := h1 (4 + k) (by omega)
        simpa only [Nat.add_assoc] using this
      · rcases hq with hq | hq
        · rw [hq.1]; rfl
        · refine hb.move fun k hk => ?_
          have := h2 (q - x + k) (by omega) (by omega)
          rw [show x + (q - x + k) = q + k by omega] at this
          rw [show y + (q - x) + k = y + (q - x + k) by omega]
          exact this

theorem alignN_move {t : XBT} (h8 : xalign t ≠ 8) {x y k : Nat} (hx : x % 4 = 0) (hy : y % 4 = 0) : alignN t (y + k) + x = alignN t (x + k) + y := by
  unfold alignN
  rw [if_neg h8, if_neg h8]
  split
  · unfold aa; omega
  · omega

mutual
/-- the packed copies of the items of a tree read as its elements -/
theorem packed_reads {c : Ctx} {m0 : Mem} {T : IT} {M : Mem} {len : Nat} {loc : Nat → Nat} (hT : At m0 T) (hp : PackedAs m0 T M len loc) {g : Img} (hg : g.size < 2147483648)
    (hgl : len ≤ g.size) (hgm : g.mem = M) : ∀ (e : Elem) (n : IT), n ∈ T.nodes → Fits c m0 e n → Narrow c.flt e → n.pc ≤ 32767 →
    (∀ r, NamesIn (TagOk g r c) (ParOk g r c) e → Reads c.flt c.ptype g r e (loc n.x)) ∧ Visits g e (loc n.x) (n.nodes.map fun k => (loc k.x : Int))
  | .mk name value params children, n, hn, hf, hnar, hpc => by
    subst hgm
    unfold Fits at hf
    unfold Narrow at hnar
    obtain ⟨ho, hfa⟩ := hf
    have an := (At.inside T hT n hn).1
    have no := an.own_le
    have nl := an.len_ge
    have hcl := hfa.length
    obtain ⟨c1, c2, c3, c4, ⟨l, l1, l2, l3, -⟩, c6⟩ := hp.copied n hn
    have hcnt := ho.cnt
    have hroom := ho.room
    have mv : ∀ (o : Nat) (bs : List UInt8), o + bs.length ≤ n.own → (o + bs.length ≤ 8 ∨ 12 ≤ o) →
        (o + bs.length ≤ 12 + 8 * n.pc ∨ 12 + 8 * n.pc + 4 * n.kids.length ≤ o) → Has m0 (n.x + o) bs → Has g.mem (loc n.x + o) bs := by
      intro o bs h1 h2 h3 h4
      refine h4.move (fun i hi => ?_)
      rw [Nat.add_assoc, Nat.add_assoc]
      exact c4 (o + i) (by omega) (by omega) (by omega)
    have head : HeadAt g (loc n.x) (c.tags.find (some name)) n.pc n.kids.length l :=
      ⟨mv 0 _ (by rw [leN_length]; omega) (by rw [leN_length]; omega) (by rw [leN_length]; omega) ho.nm,
        mv 2 _ (by rw [leN_length]; omega) (by rw [leN_length]; omega) (by rw [leN_length]; omega) an.pcHas.2,
        mv 4 _ (by rw [le32_length]; omega) (by rw [le32_length]; omega) (by rw [le32_length]; omega) an.ccHas, l1, by omega⟩
    have hpcr := head.paramcount hpc
    have hccr := head.childcount (by omega)
    have hch := head.childrenAt hpc
    have hva := head.valueAt hpc (by omega)
    obtain ⟨q1, q2⟩ := packed_readsAll hT hp hg hgl rfl children n hn n.kids hfa hnar.2 0 (by simp) hpcr hccr hch
    refine ⟨?_, ?_⟩
    · intro r hnm
      unfold NamesIn at hnm
      unfold Reads
      refine ⟨⟨_, head.name hnm.1.1, hnm.1.2, by rintro rfl; simp [SymTab.find, etTecera]⟩, by rw [hpcr, hcnt], ?_, ?_, by rw [hccr, hcl], q1 r hnm.2.2⟩
      · intro i hi
        have hin := hnm.2.1 params[i] (List.getElem_mem hi)
        have hat := (ho.par i hi).shift (M := g.mem) (y := loc n.x) (by omega) (fun k hk => by
            have := c4 (12 + 8 * i + k) (by omega) (by omega) (by omega)
            simpa only [Nat.add_assoc] using this) (fun k k1 k2 => c4 k (by omega) (by omega) (by omega))
        obtain ⟨r1, r2⟩ := hat.read hin.1 (by omega) (by omega) (by omega) hg
        refine ⟨((loc n.x + 12 + 8 * i : Nat) : Int), _, ?_, r1, hin.2, r2⟩
        unfold Img.getParamByIndex
        rw [if_neg (by omega), hpcr]
        simp only [Out.ok_bind, Out.pure_eq]
        rw [if_neg (by omega)]
        congr 2
      · obtain ⟨d, d1, d2, d3, d4, d5⟩ := ho.val
        refine ⟨d, d1, ?_⟩
        have h8 : xalign d.type ≠ 8 := by
          have := hnar.1 d d1
          revert this
          cases d.type <;> simp [xalign]
        have hge := alignN_ge d.type (n.x + 12 + 8 * n.pc + 4 * n.kids.length + 1)
        have hal := alignN_move (k := 12 + 8 * n.pc + 4 * n.kids.length + 1) h8 nl.2.1 c1
        simp only [← Nat.add_assoc] at hal
        refine g.rawValue_ok hva d2 ?_ ?_ (by omega)
        · have := mv (12 + 8 * n.pc + 4 * n.kids.length) [d.type.code] (by rw [List.length_singleton]; omega) (by omega) (by omega) (by simpa only [Nat.add_assoc] using d3)
          simpa only [Nat.add_assoc] using this
        · have := mv (alignN d.type (n.x + 12 + 8 * n.pc + 4 * n.kids.length + 1) - n.x) d.bytes (by omega) (by omega) (by omega)
            (by rw [show n.x + (alignN d.type (n.x + 12 + 8 * n.pc + 4 * n.kids.length + 1) - n.x) = alignN d.type (n.x + 12 + 8 * n.pc + 4 * n.kids.length + 1) by omega]; exact d4)
          rw [show loc n.x + (alignN d.type (n.x + 12 + 8 * n.pc + 4 * n.kids.length + 1) - n.x) = alignN d.type (loc n.x + 12 + 8 * n.pc + 4 * n.kids.length + 1) by omega] at this
          exact this
    · unfold Visits
      refine ⟨_, ?_, q2⟩
      obtain ⟨x, l, p, ks⟩ := n
      rw [show (IT.mk x l p ks).nodes = IT.mk x l p ks :: nodesL ks by rw [IT.nodes], List.map_cons]
      rfl
theorem packed_readsAll {c : Ctx} {m0 : Mem} {T : IT} {M : Mem} {len : Nat} {loc : Nat → Nat} (hT : At m0 T) (hp : PackedAs m0 T M len loc) {g : Img} (hg : g.size < 2147483648)
    (hgl : len ≤ g.size) (hgm : g.mem = M) : ∀ (es : List Elem) (n : IT), n ∈ T.nodes → ∀ (ks : List IT), FitsAll c m0 es ks → NarrowAll c.flt es → ∀ (i : Nat),
    n.kids.drop i = ks → g.paramcount (loc n.x) = .ok (n.pc : Int) → g.childcount (loc n.x) = .ok (n.kids.length : Int) →
    g.childrenAt (loc n.x) = .ok ((loc n.x + 12 + 8 * n.pc : Nat) : Int) →
    (∀ r, NamesInAll (TagOk g r c) (ParOk g r c) es → ReadsAll c.flt c.ptype g r es (loc n.x) i) ∧
      VisitsAll g es (loc n.x) i ((nodesL ks).map fun k => (loc k.x : Int))
  | [], n, hn, [], hf, hnar, i, hd, h1, h2, h3 => by
    refine ⟨fun r _ => by unfold ReadsAll; trivial, by unfold VisitsAll nodesL; rfl⟩
  | [], n, hn, _ :: _, hf, hnar, i, hd, h1, h2, h3 => by unfold FitsAll at hf; exact hf.elim
  | _ :: _, n, hn, [], hf, hnar, i, hd, h1, h2, h3 => by unfold FitsAll at hf; exact hf.elim
  | e :: es, n, hn, k :: ks, hf, hnar, i, hd, h1, h2, h3 => by
    subst hgm
    unfold FitsAll at hf
    unfold NarrowAll at hnar
    have hi : i < n.kids.length := by
      have := congrArg List.length hd
      rw [List.length_drop, List.length_cons] at this
      omega
    have hk : n.kids[i] = k := by
      have := List.drop_eq_getElem_cons hi
      rw [hd] at this
      injection this with a b
      exact a.symm
    have hd' : n.kids.drop (i + 1) = ks := by
      have := List.drop_eq_getElem_cons hi
      rw [hd] at this
      injection this with a b
      exact b.symm
    have hkm : k ∈ T.nodes := by
      rw [← hk]; exact nodes_trans hT hn (At.kid_mem i hi)
    have an := (At.inside T hT n hn).1
    have ak := (At.inside T hT k hkm).1
    have no := an.own_le
    have nl := an.len_ge
    have kl := ak.len_ge
    obtain ⟨c1, c2, c3, c4, -, c6⟩ := hp.copied n hn
    obtain ⟨-, k2, k3, -⟩ := hp.copied k hkm
    have hget : g.getChildByIndex (loc n.x) i = .ok (some (loc k.x : Int)) := by
      unfold Img.getChildByIndex
      rw [h2]
      simp only [Out.ok_bind]
      rw [if_neg (by omega), h3]
      simp only [Out.ok_bind]
      have hptr := c6 i hi
      rw [hk] at hptr
      rw [g.i32_ok hptr (by omega) (by unfold isI32 INT_MIN INT_MAX; simp only [id]; omega) _ (by omega)]
      simp only [Out.ok_bind, Out.pure_eq, id]
      congr 2
      omega
    obtain ⟨r1, r2⟩ := packed_reads hT hp hg hgl rfl e k hkm hf.1 hnar.1 ak.pcHas.1
    obtain ⟨s1, s2⟩ := packed_readsAll hT hp hg hgl rfl es n hn ks hf.2 hnar.2 (i + 1) hd' h1 h2 h3
    refine ⟨?_, ?_⟩
    · intro r hnm
      unfold NamesInAll at hnm
      unfold ReadsAll
      exact ⟨⟨_, hget, r1 r hnm.1⟩, s1 r hnm.2⟩
    · unfold VisitsAll nodesL
      exact ⟨_, _, _, hget, r2, s2, by rw [List.map_append]⟩
end

end BX
