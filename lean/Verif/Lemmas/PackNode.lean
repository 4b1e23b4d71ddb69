import Verif.Lemmas.PackTree
namespace BX
open XBT Spec

/-- the memory `S1` after marking the copies: `rep` gives the address of the first item with the same bytes -/
structure Marks (m0 S1 : Mem) (T : IT) (rep : Nat → Nat) : Prop where
  first : ∀ n ∈ T.nodes, ∃ r ∈ T.nodes, r.x = rep n.x ∧ r.x ≤ n.x ∧ r.bytes m0 = n.bytes m0
  min : ∀ n ∈ T.nodes, ∀ n' ∈ T.nodes, n.bytes m0 = n'.bytes m0 → rep n.x ≤ n'.x
  ref : ∀ n ∈ T.nodes, rep n.x < n.x → Has S1 n.x (leN 2 (toU 16 (-7))) ∧ Has S1 (n.x + 4) (le32 ((rep n.x : Int) - n.x))
  keep : ∀ a, (∀ n ∈ T.nodes, rep n.x < n.x → ¬ (n.x ≤ a ∧ a < n.x + 8)) → S1 a = m0 a

/-- no item has a name the packer uses itself -/
def Named (m : Mem) (T : IT) : Prop := ∀ n ∈ T.nodes, ∃ nm : Int, -32768 ≤ nm ∧ nm ≤ 32767 ∧ nm ≠ -7 ∧ nm ≠ -8 ∧ Has m n.x (leN 2 (toU 16 nm))

theorem Marks.le {m0 S1 : Mem} {T : IT} {rep : Nat → Nat} (h : Marks m0 S1 T rep) {n : IT} (hn : n ∈ T.nodes) : rep n.x ≤ n.x := by
  obtain ⟨r, -, h2, h3, -⟩ := h.first n hn
  omega

theorem Marks.same {m0 S1 : Mem} {T : IT} {rep : Nat → Nat} (h : Marks m0 S1 T rep) {n n' : IT} (hn : n ∈ T.nodes) (hn' : n' ∈ T.nodes)
    (he : n.bytes m0 = n'.bytes m0) : rep n.x = rep n'.x := by
  obtain ⟨r, r1, r2, r3, r4⟩ := h.first n hn
  obtain ⟨r', s1, s2, s3, s4⟩ := h.first n' hn'
  have a := h.min n hn r' s1 (he.trans s4.symm)
  have b := h.min n' hn' r r1 (he.symm.trans r4.symm)
  omega

theorem nodes_trans {m : Mem} {T : IT} (h : At m T) {n k : IT} (hn : n ∈ T.nodes) (hk : k ∈ n.nodes) : k ∈ T.nodes := by
  induction hl : T.len using Nat.strongRecOn generalizing T with
  | _ l ih =>
    rcases mem_nodes.1 hn with rfl | ⟨c, hc, hn⟩
    · exact hk
    · obtain ⟨i, hi, rfl⟩ := List.getElem_of_mem hc
      obtain ⟨-, p2, p3, p4⟩ := h.kid i hi
      have := h.own_le
      unfold IT.stop at p4
      exact mem_nodes.2 (.inr ⟨_, hc, ih _ (by omega) p2 hn rfl⟩)

/-- the own bytes of an item that is not a copy are not touched by marking -/
theorem Marks.keepOwn {m0 S1 : Mem} {T : IT} {rep : Nat → Nat} (h : Marks m0 S1 T rep) (hT : At m0 T) {n : IT} (hn : n ∈ T.nodes) (hr : rep n.x = n.x)
    (a : Nat) (h1 : n.x ≤ a) (h2 : a < n.x + n.own) : S1 a = m0 a := by
  refine h.keep a (fun r hr1 hr2 => ?_)
  rintro ⟨h3, h4⟩
  obtain ⟨an, -⟩ := At.inside T hT n hn
  obtain ⟨ar, -⟩ := At.inside T hT r hr1
  have o1 := an.own_le
  have o2 := ar.own_le
  rcases Nat.lt_trichotomy n.x r.x with hlt | heq | hgt
  · rcases At.laminar T hT n hn r hr1 (by omega) with h5 | h5
    · obtain ⟨-, -, -, h6⟩ := At.inside n an r h5
      rcases h6 with rfl | h6 <;> omega
    · unfold IT.stop at h5; omega
  · have := At.unique hT hn hr1 heq
    subst this; omega
  · rcases At.laminar T hT r hr1 n hn (by omega) with h5 | h5
    · obtain ⟨-, -, -, h6⟩ := At.inside r ar n h5
      rcases h6 with rfl | h6 <;> omega
    · unfold IT.stop at h5; omega

/-- an item inside a copy is a copy -/
theorem Marks.inside {m0 S1 : Mem} {T : IT} {rep : Nat → Nat} (h : Marks m0 S1 T rep) (hT : At m0 T) {n : IT} (hn : n ∈ T.nodes) (hr : rep n.x < n.x)
    {k : IT} (hk : k ∈ n.nodes) : rep k.x < k.x := by
  obtain ⟨r, r1, r2, r3, r4⟩ := h.first n hn
  obtain ⟨an, -⟩ := At.inside T hT n hn
  obtain ⟨ar, -⟩ := At.inside T hT r r1
  obtain ⟨k', k1, k2, k3⟩ := same_inside _ rfl an ar r4.symm k hk
  have := h.min k (nodes_trans hT hn hk) k' (nodes_trans hT r1 k1) k3
  omega

/-- the item `r` is copied to `L r.x`; its pointers lead to the copies of the first items like its children -/
structure Copied (m0 : Mem) (rep L : Nat → Nat) (D : Mem) (wp : Nat) (r : IT) : Prop where
  al : L r.x % 4 = 0
  le : L r.x ≤ r.x
  room : L r.x + r.own ≤ wp
  bytes : ∀ i, i < r.own → ¬ (8 ≤ i ∧ i < 12) → ¬ (12 + 8 * r.pc ≤ i ∧ i < 12 + 8 * r.pc + 4 * r.kids.length) → D (L r.x + i) = m0 (r.x + i)
  len : ∃ l : Nat, Has D (L r.x + 8) (le32 l) ∧ r.own ≤ l ∧ L r.x + l ≤ wp ∧ (r.kids = [] → l = r.len)
  ptr : ∀ i (h : i < r.kids.length), Has D (L r.x + 12 + 8 * r.pc + 4 * i) (le32 ((L (rep r.kids[i].x) : Int) - L r.x))

/-- the item `r` is copied and marked as processed -/
structure Done (m0 : Mem) (rep L : Nat → Nat) (S D : Mem) (wp : Nat) (r : IT) : Prop extends Copied m0 rep L D wp r where
  nm : Has S r.x (leN 2 (toU 16 (-8)))
  ref : Has S (r.x + 4) (le32 (L r.x))

theorem Done.frame {m0 : Mem} {rep L : Nat → Nat} {S D : Mem} {wp : Nat} {r : IT} (h : Done m0 rep L S D wp r) {S1 : Mem} {T : IT} (hM : Marks m0 S1 T rep)
    (hT : At m0 T) (hr : r ∈ T.nodes) {L' : Nat → Nat} {S' D' : Mem} {wp' : Nat} (hS : ∀ a, r.x ≤ a → a < r.x + 8 → S' a = S a)
    (hD : ∀ a, L r.x ≤ a → a < L r.x + r.own → D' a = D a) (hL : ∀ a, a < r.stop → L' a = L a) (hw : wp ≤ wp') : Done m0 rep L' S' D' wp' r := by
  obtain ⟨ar, -⟩ := At.inside T hT r hr
  have o := ar.own_le
  have hx : L' r.x = L r.x := hL _ (by unfold IT.stop; omega)
  refine ⟨⟨by rw [hx]; exact h.al, by rw [hx]; exact h.le, by rw [hx]; have := h.room; omega, ?_, ?_, ?_⟩, ?_, ?_⟩
  · intro i h1 h2 h3
    rw [hx, hD _ (by omega) (by omega)]
    exact h.bytes i h1 h2 h3
  · obtain ⟨l, l1, l2, l3, l5⟩ := h.len
    refine ⟨l, ?_, l2, by rw [hx]; omega, l5⟩
    rw [hx]
    exact l1.congr (fun i i1 i2 => hD i (by omega) (by rw [le32_length] at i2; omega))
  · intro i hi
    obtain ⟨-, k2, k3, k4⟩ := ar.kid i hi
    have := hM.le (nodes_trans hT hr (At.kid_mem i hi))
    have := k2.len_ge
    unfold IT.stop at k4 hL
    rw [hx, hL (rep r.kids[i].x) (by omega)]
    exact (h.ptr i hi).congr (fun j j1 j2 => hD j (by omega) (by rw [le32_length] at j2; omega))
  · exact h.nm.congr (fun i i1 i2 => hS i (by omega) (by rw [leN_length] at i2; omega))
  · rw [hx]
    exact h.ref.congr (fun i i1 i2 => hS i (by omega) (by rw [le32_length] at i2; omega))

/-- the items before `front` are processed, or contain everything up to `hi` -/
def Before (m0 : Mem) (rep L : Nat → Nat) (T : IT) (S D : Mem) (wp front hi : Nat) (ok : IT → Prop) : Prop :=
  ∀ r ∈ T.nodes, rep r.x = r.x → r.x < front → (Done m0 rep L S D wp r ∧ r.stop ≤ front ∧ ok r) ∨ hi ≤ r.stop

/-- leaves at the front that are no copies stay at their places -/
def Stays (rep L : Nat → Nat) (ks : List IT) : Prop :=
  ∀ j (hj : j < ks.length), (∀ i (hi : i < j), ks[i].kids = [] ∧ rep ks[i].x = ks[i].x) → rep ks[j].x = ks[j].x → L ks[j].x = ks[j].x

/-- what packing the item `n` does -/
structure Packs (m0 : Mem) (rep L : Nat → Nat) (S D : Mem) (wp : Nat) (n : IT) (S' D' : Mem) (wp' : Nat) (L' : Nat → Nat) : Prop where
  src : ∀ a, a < n.x ∨ n.stop ≤ a → S' a = S a
  dst : ∀ a, a < wp → D' a = D a
  ge : wp ≤ wp'
  le : wp' ≤ n.stop
  loc : ∀ a, a < n.x → L' a = L a
  done : ∀ r ∈ n.nodes, rep r.x = r.x → Done m0 rep L' S' D' wp' r ∧ wp ≤ L' r.x
  order : ∀ r ∈ n.nodes, ∀ r' ∈ n.nodes, rep r.x = r.x → rep r'.x = r'.x → r.x < r'.x → L' r.x + r.own ≤ L' r'.x
  place : rep n.x = n.x → L' n.x = aa wp ∧ (n.kids = [] → wp' = aa wp + n.len) ∧ (aa wp = n.x → Stays rep L' n.kids) ∧
    Has D' (aa wp + 8) (le32 ((wp' : Int) - aa wp))

structure PacksAll (m0 : Mem) (rep L : Nat → Nat) (S D : Mem) (wp : Nat) (ks : List IT) (y da lo hi : Nat) (S' D' : Mem) (wp' : Nat) (L' : Nat → Nat) : Prop where
  src : ∀ a, a < lo ∨ hi ≤ a → S' a = S a
  dst : ∀ a, a < wp → ¬ (da ≤ a ∧ a < da + 4 * ks.length) → D' a = D a
  ge : wp ≤ wp'
  le : wp' ≤ max wp hi
  loc : ∀ a, a < lo → L' a = L a
  done : ∀ r ∈ nodesL ks, rep r.x = r.x → Done m0 rep L' S' D' wp' r ∧ wp ≤ L' r.x
  order : ∀ r ∈ nodesL ks, ∀ r' ∈ nodesL ks, rep r.x = r.x → rep r'.x = r'.x → r.x < r'.x → L' r.x + r.own ≤ L' r'.x
  ptr : ∀ i (h : i < ks.length), Has D' (da + 4 * i) (le32 ((L' (rep ks[i].x) : Int) - y))
  place : aa wp = aa lo → Stays rep L' ks

/-- the assumption about the recursive call -/
def NodeSpec (m0 S1 : Mem) (T : IT) (rep : Nat → Nat) (pk : Mem → Mem → Nat → Int → Out (Mem × Mem × Nat × Int)) (n : IT) : Prop :=
  ∀ (S D : Mem) (wp : Nat) (L : Nat → Nat), (∀ a, n.x ≤ a → a < n.stop → S a = S1 a) → wp ≤ n.x →
    Before m0 rep L T S D wp n.x n.stop (fun _ => True) →
    ∃ S' D' wp' L', pk S D wp n.x = .ok (S', D', wp', (L' (rep n.x) : Int)) ∧ Packs m0 rep L S D wp n S' D' wp' L'

set_option maxHeartbeats 1000000 in
theorem packChildren_spec {m0 S1 : Mem} {T : IT} {rep : Nat → Nat} (hT : At m0 T) (hM : Marks m0 S1 T rep) {limit dst : Nat} (hl : T.stop ≤ limit) (hd : T.stop ≤ dst)
    {pk : Mem → Mem → Nat → Int → Out (Mem × Mem × Nat × Int)} {x y o : Nat} :
    ∀ (ks : List IT) (ca da lo hi : Nat) (S D : Mem) (wp : Nat) (L : Nat → Nat), (∀ k ∈ ks, k ∈ T.nodes ∧ NodeSpec m0 S1 T rep pk k) →
      AtKids m0 ks x ca lo hi → x + 12 ≤ ca → ca + 4 * ks.length ≤ lo → y + 12 ≤ da → da + 4 * ks.length ≤ y + o → y + o ≤ wp → y ≤ x → hi ≤ T.stop → x ≤ lo →
      (∀ a, lo ≤ a → a < hi → S a = S1 a) → (∀ a, ca ≤ a → a < ca + 4 * ks.length → S a = m0 a) → wp ≤ aa lo →
      Before m0 rep L T S D wp (aa lo) hi (fun r => L r.x + r.own ≤ y ∨ y + o ≤ L r.x) →
      ∃ S' D' wp' L', packChildren limit dst pk x y ks.length S D wp ca da = .ok (S', D', wp') ∧ PacksAll m0 rep L S D wp ks y da lo hi S' D' wp' L'
  | [], ca, da, lo, hi, S, D, wp, L, hks, hat, hxca, hcalo, hyda, hdao, hywp, hyx, hhi, hxlo, hS, hSp, hwp, hB => by
    unfold AtKids at hat
    refine ⟨S, D, wp, L, by unfold packChildren; rfl, fun _ _ => rfl, fun _ _ _ => rfl, Nat.le_refl _, by omega, fun _ _ => rfl, ?_, ?_, ?_, ?_⟩
    · intro r hr; unfold nodesL at hr; cases hr
    · intro r hr; unfold nodesL at hr; cases hr
    · intro i h; simp at h
    · intro _ j hj; simp at hj
  | k :: ks, ca, da, lo, hi, S, D, wp, L, hks, hat, hxca, hcalo, hyda, hdao, hywp, hyx, hhi, hxlo, hS, hSp, hwp, hB => by
    unfold AtKids at hat
    obtain ⟨a1, a2, a3, a4⟩ := hat
    obtain ⟨hkT, hkS⟩ := hks k (by simp)
    have g := aa_ge lo
    have gl := aa_lt lo
    have l4 := AtKids.le _ _ _ _ _ a4
    have kl := a3.len_ge
    have ko := a3.own_le
    have gk := aa_ge k.stop
    have gkl := aa_lt k.stop
    have hks' : k.stop = k.x + k.len := rfl
    have hTx := (At.inside T hT k hkT).2.2.1
    have hTl := hT.len_ge
    have hTs : T.stop = T.x + T.len := rfl
    simp only [List.length_cons] at hcalo hdao hSp
    -- the pointer
    have hp : (⟨S, limit⟩ : Img).i32 ca = .ok ((k.x : Int) - x) := by
      refine Img.i32_ok (f := ⟨S, limit⟩) (a1.congr (fun i i1 i2 => hSp i i1 (by rw [le32_length] at i2; omega))) ?_ ?_ _ rfl
      · simp only; omega
      · unfold isI32 INT_MIN INT_MAX; omega
    -- the child
    obtain ⟨S2, D2, w2, L2, e2, P2⟩ := hkS S D wp L (fun a h1 h2 => hS a (by omega) (by omega)) (by omega) (by
      intro r r1 r2 r3
      rcases hB r r1 r2 (by omega) with ⟨h1, h2, h3⟩ | h1
      · exact .inl ⟨h1, by omega, trivial⟩
      · exact .inr (by omega))
    have P2le := P2.le
    have P2ge := P2.ge
    unfold packChildren
    rw [List.length_cons]
    simp only
    rw [hp]
    simp only [Out.ok_bind]
    rw [show (x : Int) + ((k.x : Int) - x) = k.x by omega, e2]
    simp only [Out.ok_bind]
    rw [if_neg (by omega), Int.toNat_natCast]
    rw [show put dst D2 da (le32 ((L2 (rep k.x) : Int) - y)) = .ok (memPut D2 da (le32 ((L2 (rep k.x) : Int) - y))) from by
      unfold put; rw [if_pos (by rw [le32_length]; omega)]]
    simp only [Out.ok_bind]
    -- old items after the child
    have hold : ∀ r ∈ T.nodes, Done m0 rep L S D wp r → r.stop ≤ aa lo → (L r.x + r.own ≤ y ∨ y + o ≤ L r.x) →
        Done m0 rep L2 S2 (memPut D2 da (le32 ((L2 (rep k.x) : Int) - y))) w2 r := by
      intro r r1 h1 h2 h3
      have r5 := (At.inside T hT r r1).1.own_le
      have r6 : r.stop = r.x + r.len := rfl
      refine h1.frame hM hT r1 (fun a b1 b2 => P2.src a (by omega)) (fun a b1 b2 => ?_) (fun a b1 => P2.loc a (by omega)) P2.ge
      have := h1.room
      rw [memPut_frame _ _ _ _ (by rw [le32_length]; omega)]
      exact P2.dst a (by omega)
    have hnew : ∀ r ∈ k.nodes, rep r.x = r.x → Done m0 rep L2 S2 (memPut D2 da (le32 ((L2 (rep k.x) : Int) - y))) w2 r ∧ wp ≤ L2 r.x := by
      intro r r1 r2
      obtain ⟨d1, d2⟩ := P2.done r r1 r2
      refine ⟨d1.frame hM hT (nodes_trans hT hkT r1) (fun a b1 b2 => rfl) (fun a b1 b2 => ?_) (fun a b1 => rfl) (Nat.le_refl _), d2⟩
      rw [memPut_frame _ _ _ _ (by rw [le32_length]; omega)]
    -- the rest
    obtain ⟨S3, D3, w3, L3, e3, P3⟩ := packChildren_spec hT hM hl hd (pk := pk) (x := x) (y := y) (o := o) ks (ca + 4) (da + 4) k.stop hi S2
      (memPut D2 da (le32 ((L2 (rep k.x) : Int) - y))) w2 L2 (fun k' hk' => hks k' (List.mem_cons_of_mem _ hk')) a4 (by omega) (by omega) (by omega) (by omega)
      (by omega) hyx hhi (by omega) (fun a h1 h2 => by rw [P2.src a (by omega)]; exact hS a (by omega) h2)
      (fun a h1 h2 => by rw [P2.src a (by omega)]; exact hSp a (by omega) (by omega)) (by omega) (by
        intro r r1 r2 r3
        have r4 := (At.inside T hT r r1).1.len_ge
        by_cases hlt : r.x < k.x
        · rcases hB r r1 r2 (by omega) with ⟨h1, h2, h3⟩ | h1
          · refine .inl ⟨hold r r1 h1 h2 h3, by omega, ?_⟩
            show L2 r.x + r.own ≤ y ∨ y + o ≤ L2 r.x
            rw [P2.loc _ hlt]; exact h3
          · exact .inr h1
        · rcases At.laminar T hT k hkT r r1 (by omega) with h1 | h1
          · have h2 := (At.inside k a3 r h1).2.2.1
            obtain ⟨d1, d2⟩ := hnew r h1 r2
            exact .inl ⟨d1, by omega, .inr (by omega)⟩
          · have := aa_mod k.stop
            omega)
    have P3ge := P3.ge
    have P3le := P3.le
    refine ⟨S3, D3, w3, L3, by rw [show (ca : Int) + 4 = ((ca + 4 : Nat) : Int) by omega, show (da : Int) + 4 = ((da + 4 : Nat) : Int) by omega]; exact e3, ?_⟩
    have hdone : ∀ r ∈ k.nodes, rep r.x = r.x → Done m0 rep L3 S3 D3 w3 r ∧ L3 r.x = L2 r.x := by
      intro r r1 r2
      obtain ⟨d1, d2⟩ := hnew r r1 r2
      obtain ⟨ar, i1, i2, -⟩ := At.inside k a3 r r1
      have r5 := ar.own_le
      have r6 : r.stop = r.x + r.len := rfl
      have := d1.room
      refine ⟨d1.frame hM hT (nodes_trans hT hkT r1) (fun a b1 b2 => P3.src a (by omega)) (fun a b1 b2 => P3.dst a (by omega) (by omega))
        (fun a b1 => P3.loc a (by omega)) P3.ge, P3.loc _ (by omega)⟩
    refine ⟨?_, ?_, by omega, by omega, ?_, ?_, ?_, ?_, ?_⟩
    · intro a ha
      rw [P3.src a (by omega), P2.src a (by omega)]
    · intro a h1 h2
      simp only [List.length_cons] at h2
      rw [P3.dst a (by omega) (by omega), memPut_frame _ _ _ _ (by rw [le32_length]; omega), P2.dst a (by omega)]
    · intro a ha
      rw [P3.loc a (by omega), P2.loc a (by omega)]
    · intro r r1 r2
      unfold nodesL at r1
      rcases List.mem_append.1 r1 with r1 | r1
      · obtain ⟨d1, d2⟩ := hdone r r1 r2
        have := (hnew r r1 r2).2
        exact ⟨d1, by omega⟩
      · obtain ⟨d1, d2⟩ := P3.done r r1 r2
        exact ⟨d1, by omega⟩
    · intro r r1 r' r1' r2 r2' hlt
      unfold nodesL at r1 r1'
      rcases List.mem_append.1 r1 with r1 | r1 <;> rcases List.mem_append.1 r1' with r1' | r1'
      · rw [(hdone r r1 r2).2, (hdone r' r1' r2').2]
        exact P2.order r r1 r' r1' r2 r2' hlt
      · obtain ⟨d1, d2⟩ := hnew r r1 r2
        rw [(hdone r r1 r2).2]
        have := d1.room
        have := (P3.done r' r1' r2').2
        omega
      · obtain ⟨b1, b2, b3, -⟩ := At.inside k a3 r' r1'
        obtain ⟨c1, c2, c3⟩ := AtKids.inside ks _ _ _ _ a4 r r1
        have := b1.len_ge
        unfold IT.stop at b3 c2
        omega
      · exact P3.order r r1 r' r1' r2 r2' hlt
    · intro i hi'
      cases i with
      | zero =>
        have hle := hM.le hkT
        simp only [List.getElem_cons_zero, Nat.mul_zero, Nat.add_zero]
        rw [P3.loc _ (by omega)]
        exact (Has.self D2 da _).congr (fun j j1 j2 => by rw [le32_length] at j2; exact P3.dst j (by omega) (by omega))
      | succ i =>
        have := P3.ptr i (by simpa using hi')
        simp only [List.getElem_cons_succ]
        rw [show da + 4 * (i + 1) = da + 4 + 4 * i by omega]
        exact this
    · intro hpl j hj hprev hrep
      cases j with
      | zero =>
        simp only [List.getElem_cons_zero] at hrep ⊢
        rw [P3.loc _ (by omega), (P2.place hrep).1]
        omega
      | succ j =>
        obtain ⟨q1, q2⟩ := hprev 0 (by omega)
        simp only [List.getElem_cons_zero] at q1 q2
        obtain ⟨-, p2, -⟩ := P2.place q2
        have := p2 q1
        refine P3.place (by rw [this]; congr 1; omega) j (by simpa using hj) (fun i hi => ?_) (by simpa using hrep)
        have := hprev (i + 1) (by omega)
        simpa using this

theorem depth_kid {t k : IT} (h : k ∈ t.kids) : k.depth < t.depth := by
  obtain ⟨x, l, p, ks⟩ := t
  have key : ∀ ks : List IT, k ∈ ks → k.depth ≤ depthL ks := by
    intro ks
    induction ks with
    | nil => intro h; cases h
    | cons c cs ih =>
      intro h
      unfold depthL
      rcases List.mem_cons.1 h with rfl | h
      · omega
      · have := ih h; omega
  have := key ks h
  have : (IT.mk x l p ks).depth = 1 + depthL ks := by rw [IT.depth]
  omega

set_option maxHeartbeats 2000000 in
theorem packNode_spec {m0 S1 : Mem} {T : IT} {rep : Nat → Nat} (hT : At m0 T) (hM : Marks m0 S1 T rep) (hN : Named m0 T) {limit dst : Nat} (hl : T.stop ≤ limit)
    (hd : T.stop ≤ dst) : ∀ (fuel : Nat) (n : IT), n ∈ T.nodes → n.depth ≤ fuel → NodeSpec m0 S1 T rep (packNode limit dst fuel) n := by
  intro fuel
  induction fuel with
  | zero =>
    intro n hn hdep
    obtain ⟨x, l, p, ks⟩ := n
    unfold IT.depth at hdep
    omega
  | succ fuel ih =>
    intro n hn hdep S D wp L hS hwp hB
    obtain ⟨an, hx1, hx2, -⟩ := At.inside T hT n hn
    have no := an.own_le
    have nl := an.len_ge
    have hTl := hT.len_ge
    have hTs : T.stop = T.x + T.len := rfl
    have hns : n.stop = n.x + n.len := rfl
    have hy : aa wp ≤ n.x := by
      have := aa_ge wp
      have := aa_lt wp
      have := aa_mod wp
      omega
    have hyw := aa_ge wp
    have hym := aa_mod wp
    have hle := hM.le hn
    generalize hyy : aa wp = y at *
    by_cases hrep : rep n.x < n.x
    · -- a copy
      obtain ⟨m1, m2⟩ := hM.ref n hn hrep
      obtain ⟨r, r1, r2, r3, r4⟩ := hM.first n hn
      have hlen := (bytes_eq r4).1
      have hap := At.apart hT r1 hn hlen (by omega)
      have rl := (At.inside T hT r r1).1.len_ge
      have hrs : r.stop = r.x + r.len := rfl
      have hrr : rep r.x = r.x := by
        have := hM.same r1 hn r4
        omega
      obtain ⟨hdone, -, -⟩ : Done m0 rep L S D wp r ∧ r.stop ≤ n.x ∧ True := by
        rcases hB r r1 hrr (by omega) with h1 | h1
        · exact h1
        · omega
      have e1 : (⟨S, limit⟩ : Img).name n.x = .ok (-7) :=
        Img.i16_ok (f := ⟨S, limit⟩) (m1.congr (fun i i1 i2 => hS i (by omega) (by rw [leN_length] at i2; omega))) (by simp only; omega) (by omega) _ rfl
      have e2 : (⟨S, limit⟩ : Img).i32 ((n.x : Int) + 4) = .ok ((rep n.x : Int) - n.x) :=
        Img.i32_ok (f := ⟨S, limit⟩) (m2.congr (fun i i1 i2 => hS i (by omega) (by rw [le32_length] at i2; omega))) (by simp only; omega)
          (by unfold isI32 INT_MIN INT_MAX; omega) _ (by omega)
      have e3 : (⟨S, limit⟩ : Img).name ((n.x : Int) + ((rep n.x : Int) - n.x)) = .ok (-8) :=
        Img.i16_ok (f := ⟨S, limit⟩) hdone.nm (by simp only; omega) (by omega) _ (by omega)
      have hL := hdone.le
      have e4 : (⟨S, limit⟩ : Img).i32 ((n.x : Int) + ((rep n.x : Int) - n.x) + 4) = .ok (L r.x : Int) :=
        Img.i32_ok (f := ⟨S, limit⟩) hdone.ref (by simp only; omega) (by unfold isI32 INT_MIN INT_MAX; omega) _ (by omega)
      refine ⟨S, D, y, L, ?_, fun _ _ => rfl, fun _ _ => rfl, hyw, by omega, fun _ _ => rfl, ?_, ?_, by omega⟩
      · unfold packNode
        simp only
        rw [e1]
        simp only [Out.ok_bind]
        rw [if_neg (by omega), if_pos True.intro, e2]
        simp only [Out.ok_bind]
        rw [e3]
        simp only [Out.ok_bind]
        rw [if_neg (by simp), e4, hyy, r2]
        rfl
      · intro k k1 k2
        have := hM.inside hT hn hrep k1
        omega
      · intro k k1 k' k1' k2
        have := hM.inside hT hn hrep k1
        omega
    · -- a first one
      have hr : rep n.x = n.x := by omega
      have hSm : ∀ a, n.x ≤ a → a < n.x + n.own → S a = m0 a := fun a h1 h2 => by
        rw [hS a h1 (by omega), hM.keepOwn hT hn hr a h1 h2]
      obtain ⟨nm, nm1, nm2, nm3, nm4, nm5⟩ := hN n hn
      have e1 : (⟨S, limit⟩ : Img).name n.x = .ok nm :=
        Img.i16_ok (f := ⟨S, limit⟩) (nm5.congr (fun i i1 i2 => hSm i (by omega) (by rw [leN_length] at i2; omega))) (by simp only; omega) (by omega) _ rfl
      have e2 : (⟨S, limit⟩ : Img).length n.x = .ok (n.len : Int) :=
        Img.i32_ok (f := ⟨S, limit⟩) (an.lenHas.congr (fun i i1 i2 => hSm i (by omega) (by rw [le32_length] at i2; omega))) (by simp only; omega)
          (by unfold isI32 INT_MIN INT_MAX; omega) _ (by omega)
      have e3 : (⟨S, limit⟩ : Img).rd n.x n.len = .ok (slice S n.x n.len) := by
        unfold Img.rd
        rw [if_pos (by simp only; omega)]
        rfl
      have e4 : (⟨S, limit⟩ : Img).childcount n.x = .ok (n.kids.length : Int) :=
        Img.i32_ok (f := ⟨S, limit⟩) (an.ccHas.congr (fun i i1 i2 => hSm i (by omega) (by rw [le32_length] at i2; omega))) (by simp only; omega)
          (by unfold isI32 INT_MIN INT_MAX; omega) _ (by omega)
      have e5 : (⟨S, limit⟩ : Img).paramcount n.x = .ok (n.pc : Int) :=
        Img.i16_ok (f := ⟨S, limit⟩) (an.pcHas.2.congr (fun i i1 i2 => hSm i (by omega) (by rw [leN_length] at i2; omega))) (by simp only; omega)
          (by have := an.pcHas.1; omega) _ (by omega)
      have hD1 : ∀ i, i < n.own → memPut D y (slice S n.x n.len) (y + i) = m0 (n.x + i) := by
        intro i hi
        rw [memPut_get _ _ _ _ (by rw [slice_length]; omega), slice_getElem, hSm _ (by omega) (by omega)]
      unfold packNode
      simp only
      rw [e1, hyy]
      simp only [Out.ok_bind]
      rw [if_neg (by omega), if_neg (by omega)]
      rw [show (⟨S, limit⟩ : Img).nodeBytes n.x = .ok (slice S n.x n.len) by
        unfold Img.nodeBytes
        rw [e2]
        simp only [Out.ok_bind]
        rw [if_neg (by omega), Int.toNat_natCast, e3]]
      simp only [Out.ok_bind]
      rw [put_eq (by rw [slice_length]; omega)]
      simp only [Out.ok_bind]
      -- the children
      obtain ⟨S2, D2, w2, L2, e6, P2⟩ : ∃ S2 D2 w2 L2, packInner limit dst (packNode limit dst fuel) n.x y (slice S n.x n.len).length S (memPut D y (slice S n.x n.len)) =
            Out.ok (S2, D2, w2) ∧
          PacksAll m0 rep (fun a => if a = n.x then y else L a) S (memPut D y (slice S n.x n.len)) (y + n.own) n.kids y (y + 12 + 8 * n.pc) (n.x + n.own) n.stop
            S2 D2 w2 L2 ∧ (n.kids = [] → w2 = y + n.len) := by
        unfold packInner
        rw [e4, slice_length]
        simp only [Out.ok_bind]
        by_cases hk : n.kids.length = 0
        · have hk0 := List.eq_nil_of_length_eq_zero hk
          have how : n.own = n.len := by rw [IT.own_eq, dif_neg (by omega)]
          refine ⟨S, memPut D y (slice S n.x n.len), y + n.len, fun a => if a = n.x then y else L a, ?_, ⟨fun _ _ => rfl, fun _ _ _ => rfl, by omega, by omega, fun _ _ => rfl, ?_, ?_, ?_, ?_⟩, ?_⟩
          · rw [if_neg (by omega)]; rfl
          · intro r h; rw [hk0] at h; unfold nodesL at h; cases h
          · intro r h; rw [hk0] at h; unfold nodesL at h; cases h
          · intro i h; omega
          · intro _ j hj; omega
          · intro _; rfl
        · have how : n.own = n.kids[0].x - n.x := by rw [IT.own_eq, dif_pos (by omega)]
          obtain ⟨k1, k2, k3, k4⟩ := an.kid 0 (by omega)
          have k5 := k2.len_ge
          have k6 : n.kids[0].stop = n.kids[0].x + n.kids[0].len := rfl
          have e7 : (⟨S, limit⟩ : Img).i32 ((n.x : Int) + 12 + 8 * n.pc) = .ok ((n.kids[0].x : Int) - n.x) :=
            Img.i32_ok (f := ⟨S, limit⟩) (k1.congr (fun i i1 i2 => hSm i (by omega) (by rw [le32_length] at i2; omega))) (by simp only; omega)
              (by unfold isI32 INT_MIN INT_MAX; omega) _ (by omega)
          rw [if_pos (by omega), e5]
          simp only [Out.ok_bind]
          rw [e7]
          simp only [Out.ok_bind]
          rw [if_neg (by omega), show ((y : Int) + ((n.kids[0].x : Int) - n.x)).toNat = y + n.own by omega, Int.toNat_natCast,
            show (n.x : Int) + 12 + 8 * (n.pc : Int) = ((n.x + 12 + 8 * n.pc : Nat) : Int) by omega,
            show (y : Int) + 12 + 8 * (n.pc : Int) = ((y + 12 + 8 * n.pc : Nat) : Int) by omega]
          have hak : AtKids m0 n.kids n.x (n.x + 12 + 8 * n.pc) (n.x + n.own) n.stop := by
            obtain ⟨x, l, p, ks⟩ := n
            unfold At at an
            exact an.2.2.2.2.2.2.2
          have halo : aa (n.x + n.own) = n.x + n.own := aa_of_mod (by omega)
          obtain ⟨S2, D2, w2, L2, e8, P2⟩ := packChildren_spec hT hM hl hd (pk := packNode limit dst fuel) (x := n.x) (y := y) (o := n.own) n.kids
            (n.x + 12 + 8 * n.pc) (y + 12 + 8 * n.pc) (n.x + n.own) n.stop S (memPut D y (slice S n.x n.len)) (y + n.own) (fun a => if a = n.x then y else L a)
            (fun k hk => by
              have h1 := nodes_trans hT hn (mem_nodes.2 (.inr ⟨k, hk, k.self_mem⟩))
              have := depth_kid hk
              exact ⟨h1, ih k h1 (by omega)⟩)
            hak (by omega) (by omega) (by omega) (by omega) (Nat.le_refl _) hy hx2 (by omega) (fun a h1 h2 => hS a (by omega) h2)
            (fun a h1 h2 => hSm a (by omega) (by omega)) (by omega) (by
              rw [halo]
              intro r r1 r2 r3
              by_cases hlt : r.x < n.x
              · rcases hB r r1 r2 hlt with ⟨h1, h2, -⟩ | h1
                · have hroom := h1.room
                  have hrx : r.x ≠ n.x := by omega
                  refine .inl ⟨h1.frame hM hT r1 (fun _ _ _ => rfl) (fun a b1 b2 => memPut_frame _ _ _ _ (by omega)) (fun a b1 => if_neg (by omega)) (by omega), by omega, .inl ?_⟩
                  simp only [if_neg hrx]
                  omega
                · exact .inr h1
              · rcases At.laminar T hT n hn r r1 (by omega) with h1 | h1
                · rcases (At.inside n an r h1).2.2.2 with rfl | h2
                  · exact .inr (Nat.le_refl _)
                  · omega
                · omega)
          exact ⟨S2, D2, w2, L2, e8, P2, fun h => by simp [h] at hk⟩
      obtain ⟨P2, hw2⟩ := P2
      have P2ge := P2.ge
      have P2le := P2.le
      rw [e6]
      simp only [Out.ok_bind]
      rw [put_eq (by rw [leN_length]; omega)]
      simp only [Out.ok_bind]
      rw [put_eq (by rw [le32_length]; omega)]
      simp only [Out.ok_bind]
      rw [put_eq (by rw [le32_length]; omega)]
      simp only [Out.ok_bind, Out.pure_eq]
      have hLn : L2 n.x = y := by
        rw [P2.loc _ (by omega)]; exact if_pos rfl
      have hkids : ∀ r ∈ nodesL n.kids, r ∈ n.nodes ∧ n.x + n.own ≤ r.x := by
        intro r hr
        obtain ⟨k, k1, k2⟩ := mem_nodesL.1 hr
        refine ⟨mem_nodes.2 (.inr ⟨k, k1, k2⟩), ?_⟩
        obtain ⟨i, hi, rfl⟩ := List.getElem_of_mem k1
        have := (an.kid i hi).2.2.1
        have := (At.inside _ (an.kid i hi).2.1 r k2).2.1
        omega
      refine ⟨_, _, w2, L2, by rw [hr, hLn, Int.toNat_natCast], ?_, ?_, by omega, by omega, ?_, ?_, ?_, ?_⟩
      · intro a ha
        rw [memPut_frame _ _ _ _ (by rw [le32_length]; omega), memPut_frame _ _ _ _ (by rw [leN_length]; omega), P2.src a (by omega)]
      · intro a ha
        rw [memPut_frame _ _ _ _ (by rw [le32_length]; omega), P2.dst a (by omega) (by omega), memPut_frame _ _ _ _ (by omega)]
      · intro a ha
        rw [P2.loc a (by omega)]
        exact if_neg (by omega)
      · intro r hr1 hr2
        rcases mem_nodes.1 hr1 with rfl | hk
        · refine ⟨⟨⟨by rw [hLn]; exact hym, by rw [hLn]; exact hy, by rw [hLn]; omega, ?_, ?_, ?_⟩, ?_, ?_⟩, by omega⟩
          · intro i i1 i2 i3
            rw [hLn, memPut_frame _ _ _ _ (by rw [le32_length]; omega), P2.dst _ (by omega) (by omega), hD1 i i1]
          · refine ⟨w2 - y, ?_, by omega, by omega, fun h => ?_⟩
            · rw [hLn, show ((w2 - y : Nat) : Int) = (w2 : Int) - y by omega]
              exact Has.self _ _ _
            · have := hw2 h; omega
          · intro i hi
            rw [hLn]
            have := P2.ptr i hi
            exact this.frame (by rw [le32_length, le32_length]; omega)
          · exact (Has.self _ _ _).frame (by rw [leN_length]; omega)
          · rw [hLn]
            exact Has.self _ _ _
        · have hk' := mem_nodesL.2 hk
          obtain ⟨q1, q2⟩ := hkids r hk'
          obtain ⟨d1, d2⟩ := P2.done r hk' hr2
          refine ⟨d1.frame hM hT (nodes_trans hT hn q1) (fun a b1 b2 => ?_) (fun a b1 b2 => ?_) (fun _ _ => rfl) (Nat.le_refl _), by omega⟩
          · rw [memPut_frame _ _ _ _ (by rw [le32_length]; omega), memPut_frame _ _ _ _ (by rw [leN_length]; omega)]
          · rw [memPut_frame _ _ _ _ (by rw [le32_length]; omega)]
      · intro r r1 r' r1' r2 r2' hlt
        rcases mem_nodes.1 r1' with rfl | hk'
        · have := (At.inside _ an r r1).2.1
          omega
        · have hk'' := mem_nodesL.2 hk'
          rcases mem_nodes.1 r1 with rfl | hk
          · have := (P2.done r' hk'' r2').2
            omega
          · exact P2.order r (mem_nodesL.2 hk) r' hk'' r2 r2' hlt
      · intro _
        refine ⟨by rw [hyy]; exact hLn, fun h => by rw [hyy]; exact hw2 h, fun h => ?_, by rw [hyy]; exact Has.self _ _ _⟩
        rw [hyy] at h
        exact P2.place (by rw [h])

end BX
