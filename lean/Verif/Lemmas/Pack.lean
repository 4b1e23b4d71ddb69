import Verif.Lemmas.PackMark
namespace BX
open XBT Spec

mutual
theorem depth_le_nodes : ∀ t : IT, t.depth ≤ t.nodes.length
  | .mk x l p ks => by
    have := depthL_le_nodes ks
    rw [show (IT.mk x l p ks).depth = 1 + depthL ks by rw [IT.depth], show (IT.mk x l p ks).nodes = IT.mk x l p ks :: nodesL ks by rw [IT.nodes], List.length_cons]
    omega
theorem depthL_le_nodes : ∀ ks : List IT, depthL ks ≤ (nodesL ks).length
  | [] => by unfold depthL; omega
  | k :: ks => by
    have := depth_le_nodes k
    have := depthL_le_nodes ks
    unfold depthL nodesL
    rw [List.length_append]
    omega
end

/-- what packing the document `T` in `m0` gives: the first `len` bytes of `M`. The item at `x` in the source is found at `loc x`. -/
structure PackedAs (m0 : Mem) (T : IT) (M : Mem) (len : Nat) (loc : Nat → Nat) : Prop where
  le : len ≤ T.len
  root : loc T.x = T.x
  rootLen : Has M (T.x + 8) (le32 len)
  copied : ∀ n ∈ T.nodes, Copied m0 id loc M len n
  share : ∀ n ∈ T.nodes, ∀ n' ∈ T.nodes, (loc n.x = loc n'.x ↔ n.bytes m0 = n'.bytes m0)
  apart : ∀ n ∈ T.nodes, ∀ n' ∈ T.nodes, loc n.x < loc n'.x → loc n.x + n.own ≤ loc n'.x
  stays : ∀ j (hj : j < T.kids.length), (∀ i (hi : i < j), T.kids[i].kids = [] ∧ ∀ n ∈ T.nodes, n.bytes m0 = T.kids[i].bytes m0 → T.kids[i].x ≤ n.x) →
    (∀ n ∈ T.nodes, n.bytes m0 = T.kids[j].bytes m0 → T.kids[j].x ≤ n.x) → loc T.kids[j].x = T.kids[j].x
  back : ∀ n ∈ T.nodes, ∀ n' ∈ T.nodes, n.bytes m0 = n'.bytes m0 → loc n.x ≤ n'.x
  order : ∀ n ∈ T.nodes, ∀ n' ∈ T.nodes, n.x < n'.x → (∀ k ∈ T.nodes, k.bytes m0 = n'.bytes m0 → n'.x ≤ k.x) → loc n.x + n.own ≤ loc n'.x

set_option maxHeartbeats 1000000 in
theorem pack_spec (H : List UInt8 → List UInt8) {m0 d0 : Mem} {T : IT} (hT : At m0 T) (h0 : T.x = 0) {limit total : Nat} (hl : T.stop ≤ limit)
    (htot : T.nodes.length = total) (hN : Named m0 T)
    (hinj : ∀ n ∈ T.nodes, ∀ n' ∈ T.nodes, hash192 (H (n.bytes m0)) = hash192 (H (n'.bytes m0)) → n.bytes m0 = n'.bytes m0) :
    ∃ M len loc, pack H limit total T.stop m0 d0 = .ok (M, len) ∧ PackedAs m0 T M len loc := by
  obtain ⟨S1, e1, hM⟩ := markReferences_spec H hT h0 hl htot hinj
  generalize repOf m0 T = rep at hM
  have hdep := depth_le_nodes T
  have hTs : T.stop = T.x + T.len := rfl
  have hTl := hT.len_ge
  have hTo := hT.own_le
  obtain ⟨S, D, wp, L, e2, P⟩ := packNode_spec hT hM hN hl (Nat.le_refl _) (total + 1) T T.self_mem (by omega) S1 d0 0 (fun a => a)
    (fun _ _ _ => rfl) (by omega) (fun r r1 r2 r3 => by omega)
  have hr0 : rep T.x = T.x := by have := hM.le T.self_mem; omega
  obtain ⟨p1, p2, p3, p4⟩ := P.place hr0
  rw [show aa 0 = 0 from rfl] at p1 p2 p3 p4
  have hle := P.le
  obtain ⟨dT, -⟩ := P.done T T.self_mem hr0
  have hroom := dT.room
  rw [hr0, p1] at e2
  rw [p1] at hroom
  rw [h0] at e2
  have rr : ∀ n ∈ T.nodes, ∃ r ∈ T.nodes, r.x = rep n.x ∧ rep r.x = r.x ∧ r.x ≤ n.x ∧ r.bytes m0 = n.bytes m0 := by
    intro n hn
    obtain ⟨r, r1, r2, r3, r4⟩ := hM.first n hn
    have := hM.same r1 hn r4
    exact ⟨r, r1, r2, by omega, r3, r4⟩
  have hrd : (⟨D, T.stop⟩ : Img).rd 0 wp = .ok (slice D 0 wp) := by
    unfold Img.rd
    rw [if_pos (by simp only; omega)]
    rfl
  have hlen : (⟨D, T.stop⟩ : Img).length 0 = .ok (wp : Int) :=
    Img.i32_ok (f := ⟨D, T.stop⟩) p4 (by simp only; omega) (by unfold isI32 INT_MIN INT_MAX; omega) _ (by omega) |>.trans (by simp)
  have hMD : ∀ a, a < wp → memPut S 0 (slice D 0 wp) a = D a := by
    intro a ha
    have := memPut_get S 0 (slice D 0 wp) a (by rw [slice_length]; exact ha)
    rw [Nat.zero_add, slice_getElem, Nat.zero_add] at this
    exact this
  refine ⟨memPut S 0 (slice D 0 wp), wp, fun x => L (rep x), ?_, ?_⟩
  · unfold pack
    rw [e1]
    simp only [Out.ok_bind]
    rw [show packNode limit T.stop (total + 1) S1 d0 0 0 = .ok (S, D, wp, ((0 : Nat) : Int)) from e2]
    simp only [Out.ok_bind]
    rw [show (((0 : Nat) : Int)) = 0 from rfl, hlen]
    simp only [Out.ok_bind]
    rw [if_neg (by omega), Int.toNat_natCast, hrd]
    simp only [Out.ok_bind]
    rw [put_eq (by rw [slice_length]; omega)]
    rfl
  · have hshare : ∀ n ∈ T.nodes, ∀ n' ∈ T.nodes, (L (rep n.x) = L (rep n'.x) ↔ n.bytes m0 = n'.bytes m0) := by
      intro n hn n' hn'
      refine ⟨fun h => ?_, fun h => by rw [hM.same hn hn' h]⟩
      obtain ⟨r, r1, r2, r3, r4, r5⟩ := rr n hn
      obtain ⟨q, q1, q2, q3, q4, q5⟩ := rr n' hn'
      rw [← r2, ← q2] at h
      have ro := (At.inside T hT r r1).1.own_le
      have qo := (At.inside T hT q q1).1.own_le
      rcases Nat.lt_trichotomy r.x q.x with hlt | heq | hgt
      · have := P.order r r1 q q1 r3 q3 hlt
        omega
      · have := At.unique hT r1 q1 heq
        subst this
        rw [← r5, ← q5]
      · have := P.order q q1 r r1 q3 r3 hgt
        omega
    refine ⟨by omega, by simp only [hr0]; omega, ?_, ?_, hshare, ?_, ?_, ?_, ?_⟩
    · rw [h0]
      refine (p4.congr (fun i i1 i2 => hMD i (by rw [le32_length] at i2; omega))).move ?_ |> fun h => by simpa using h
      intro i _; rfl
    · intro n hn
      obtain ⟨r, r1, r2, r3, r4, r5⟩ := rr n hn
      obtain ⟨d, -⟩ := P.done r r1 r3
      have ar := (At.inside T hT r r1).1
      have an := (At.inside T hT n hn).1
      obtain ⟨hl, hbs⟩ := bytes_eq r5
      obtain ⟨s1, s2, s3, s4⟩ := same_head ar an r5
      have no := an.own_le
      have droom := d.room
      refine ⟨?_, ?_, ?_, ?_, ?_, ?_⟩
      · show L (rep n.x) % 4 = 0
        rw [← r2]; exact d.al
      · show L (rep n.x) ≤ n.x
        rw [← r2]; have := d.le; omega
      · show L (rep n.x) + n.own ≤ wp
        rw [← r2, ← s3]; exact d.room
      · intro i i1 i2 i3
        show memPut _ _ _ (L (rep n.x) + i) = _
        rw [← r2, hMD _ (by omega), d.bytes i (by omega) i2 (by rw [s1, s2]; exact i3)]
        exact hbs i (by omega)
      · obtain ⟨l, l1, l2, l3, l4⟩ := d.len
        refine ⟨l, ?_, by omega, by show L (rep n.x) + l ≤ wp; rw [← r2]; exact l3, fun h => ?_⟩
        · show Has _ (L (rep n.x) + 8) _
          rw [← r2]
          exact l1.congr (fun i i1 i2 => hMD i (by rw [le32_length] at i2; omega))
        · rw [l4 (List.eq_nil_of_length_eq_zero (by rw [s2, h]; rfl)), hl]
      · intro i hi
        show Has _ (L (rep n.x) + 12 + 8 * n.pc + 4 * i) (le32 ((L (rep (id n.kids[i].x)) : Int) - (L (rep n.x) : Nat)))
        have h1 := d.ptr i (by omega)
        obtain ⟨-, s5⟩ := s4 i (by omega) hi
        have hk := hM.same (nodes_trans hT r1 (At.kid_mem i (by omega))) (nodes_trans hT hn (At.kid_mem i hi)) s5
        rw [s1, hk] at h1
        rw [← r2]
        exact h1.congr (fun j j1 j2 => hMD j (by rw [le32_length] at j2; omega))
    · intro n hn n' hn' hlt
      obtain ⟨r, r1, r2, r3, r4, r5⟩ := rr n hn
      obtain ⟨q, q1, q2, q3, q4, q5⟩ := rr n' hn'
      obtain ⟨s1, s2, s3, s4⟩ := same_head (At.inside T hT r r1).1 (At.inside T hT n hn).1 r5
      have qo := (At.inside T hT q q1).1.own_le
      change L (rep n.x) < L (rep n'.x) at hlt
      show L (rep n.x) + n.own ≤ L (rep n'.x)
      rw [← r2, ← q2] at hlt ⊢
      rw [← s3]
      rcases Nat.lt_trichotomy r.x q.x with h | h | h
      · exact P.order r r1 q q1 r3 q3 h
      · rw [h] at hlt; omega
      · have := P.order q q1 r r1 q3 r3 h
        omega
    · intro j hj hprev hself
      have hrepk : ∀ i (hi : i < T.kids.length), (∀ n ∈ T.nodes, n.bytes m0 = T.kids[i].bytes m0 → T.kids[i].x ≤ n.x) → rep T.kids[i].x = T.kids[i].x := by
        intro i hi h
        have hk : T.kids[i] ∈ T.nodes := At.kid_mem i hi
        obtain ⟨r, r1, r2, r3, r4⟩ := hM.first _ hk
        have := h r r1 r4
        omega
      show L (rep T.kids[j].x) = _
      rw [hrepk j hj hself]
      exact p3 h0.symm j hj (fun i hi => ⟨(hprev i hi).1, hrepk i (by omega) (hprev i hi).2⟩) (hrepk j hj hself)
    · intro n hn n' hn' h
      obtain ⟨r, r1, r2, r3, r4, r5⟩ := rr n' hn'
      obtain ⟨d, -⟩ := P.done r r1 r3
      have := d.le
      show L (rep n.x) ≤ _
      rw [hM.same hn hn' h, ← r2]
      omega
    · intro n hn n' hn' hlt hself
      obtain ⟨r, r1, r2, r3, r4, r5⟩ := rr n hn
      obtain ⟨q, q1, q2, q3, q4, q5⟩ := rr n' hn'
      obtain ⟨s1, s2, s3, s4⟩ := same_head (At.inside T hT r r1).1 (At.inside T hT n hn).1 r5
      have := hself q q1 q5
      show L (rep n.x) + n.own ≤ L (rep n'.x)
      rw [← r2, ← q2, ← s3]
      exact P.order r r1 q q1 r3 q3 (by omega)

end BX
