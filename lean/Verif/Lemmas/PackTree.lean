import Verif.Model.Pack
import Verif.Lemmas.StoreNode
namespace BX
open XBT Spec

/-- an item of a document by its place: address, length, number of attributes, child items -/
inductive IT where
  | mk (x len pc : Nat) (kids : List IT)
deriving Inhabited

namespace IT
def x : IT → Nat | mk x _ _ _ => x
def len : IT → Nat | mk _ l _ _ => l
def pc : IT → Nat | mk _ _ p _ => p
def kids : IT → List IT | mk _ _ _ k => k
def stop (t : IT) : Nat := t.x + t.len
/-- the number of bytes before the first child -/
def own : IT → Nat
  | mk _ len _ [] => len
  | mk x _ _ (k :: _) => k.x - x
end IT

mutual
/-- the item and its sub-items lie in memory as the tree says -/
def At (m : Mem) : IT → Prop
  | .mk x len pc kids => x % 4 = 0 ∧ x + len < 2147483648 ∧ 12 + 8 * pc + 4 * kids.length ≤ (IT.mk x len pc kids).own ∧
      pc ≤ 32767 ∧ Has m (x + 2) (leN 2 (toU 16 pc)) ∧ Has m (x + 4) (le32 kids.length) ∧ Has m (x + 8) (le32 len) ∧
      AtKids m kids x (x + 12 + 8 * pc) (x + (IT.mk x len pc kids).own) (x + len)
/-- the pointers to the children are stored from `ca` on, the first child starts at `lo` (rounded up), the last one ends at `hi` -/
def AtKids (m : Mem) : List IT → Nat → Nat → Nat → Nat → Prop
  | [], _, _, lo, hi => lo = hi
  | k :: ks, x, ca, lo, hi => Has m ca (le32 ((k.x : Int) - x)) ∧ k.x = aa lo ∧ At m k ∧ AtKids m ks x (ca + 4) k.stop hi
end

mutual
/-- all items of the tree -/
def IT.nodes : IT → List IT
  | .mk x len pc kids => .mk x len pc kids :: nodesL kids
def nodesL : List IT → List IT
  | [] => []
  | k :: ks => k.nodes ++ nodesL ks
end

mutual
def IT.depth : IT → Nat
  | .mk _ _ _ kids => 1 + depthL kids
def depthL : List IT → Nat
  | [] => 0
  | k :: ks => max k.depth (depthL ks)
end

theorem IT.self_mem (t : IT) : t ∈ t.nodes := by
  obtain ⟨x, l, p, ks⟩ := t
  unfold IT.nodes
  exact List.mem_cons_self

theorem AtKids.le {m : Mem} : ∀ (ks : List IT) (x ca lo hi : Nat), AtKids m ks x ca lo hi → lo ≤ hi
  | [], _, _, lo, hi, h => by unfold AtKids at h; omega
  | k :: ks, x, ca, lo, hi, h => by
    unfold AtKids at h
    obtain ⟨h1, h2, h3, h4⟩ := h
    have := AtKids.le ks _ _ _ _ h4
    have := aa_ge lo
    unfold IT.stop at *
    omega

theorem At.own_le {m : Mem} {t : IT} (h : At m t) : 12 + 8 * t.pc + 4 * t.kids.length ≤ t.own ∧ t.own ≤ t.len := by
  obtain ⟨x, l, p, ks⟩ := t
  unfold At at h
  obtain ⟨h1, h2, h3, h4, h5, h6, h7, h8⟩ := h
  have := AtKids.le _ _ _ _ _ h8
  simp only [IT.pc, IT.kids, IT.len]
  omega

mutual
/-- the items of the tree lie inside -/
theorem At.inside {m : Mem} : ∀ (t : IT), At m t → ∀ n ∈ t.nodes, At m n ∧ t.x ≤ n.x ∧ n.stop ≤ t.stop ∧ (n = t ∨ t.x + t.own ≤ n.x)
  | .mk x len pc kids, h, n, hn => by
    have h' := h
    unfold IT.nodes at hn
    have ho := At.own_le h
    rcases List.mem_cons.1 hn with rfl | hn
    · exact ⟨h, Nat.le_refl _, Nat.le_refl _, .inl rfl⟩
    · unfold At at h
      obtain ⟨h1, h2, h3, h4, h5, h6, h7, h8⟩ := h
      obtain ⟨a, b, c⟩ := AtKids.inside kids _ _ _ _ h8 n hn
      refine ⟨a, ?_, ?_, .inr ?_⟩
      · show x ≤ _; omega
      · show _ ≤ x + len; omega
      · exact b
theorem AtKids.inside {m : Mem} : ∀ (ks : List IT) (x ca lo hi : Nat), AtKids m ks x ca lo hi → ∀ n ∈ nodesL ks, At m n ∧ lo ≤ n.x ∧ n.stop ≤ hi
  | [], _, _, _, _, _, n, hn => by unfold nodesL at hn; cases hn
  | k :: ks, x, ca, lo, hi, h, n, hn => by
    unfold AtKids at h
    obtain ⟨h1, h2, h3, h4⟩ := h
    have g := aa_ge lo
    have l4 := AtKids.le _ _ _ _ _ h4
    unfold nodesL at hn
    rcases List.mem_append.1 hn with hn | hn
    · obtain ⟨a, b, c, -⟩ := At.inside k h3 n hn
      exact ⟨a, by omega, by omega⟩
    · obtain ⟨a, b, c⟩ := AtKids.inside ks _ _ _ _ h4 n hn
      unfold IT.stop at b
      exact ⟨a, by omega, c⟩
end

theorem At.len_ge {m : Mem} {t : IT} (h : At m t) : 12 ≤ t.len ∧ t.x % 4 = 0 ∧ t.x + t.len < 2147483648 := by
  have := At.own_le h
  obtain ⟨x, l, p, ks⟩ := t
  unfold At at h
  exact ⟨by omega, h.1, h.2.1⟩

mutual
/-- two items of a tree are apart or one contains the other -/
theorem At.laminar {m : Mem} : ∀ (t : IT), At m t → ∀ a ∈ t.nodes, ∀ b ∈ t.nodes, a.x ≤ b.x → b ∈ a.nodes ∨ a.stop ≤ b.x
  | .mk x len pc kids, h, a, ha, b, hb, hab => by
    have hin := At.inside _ h
    have ho := At.own_le h
    obtain ⟨-, b2, b3, b4⟩ := hin b hb
    have hb' := hb
    unfold IT.nodes at ha
    rcases List.mem_cons.1 ha with rfl | ha
    · exact .inl hb'
    · unfold At at h
      obtain ⟨h1, h2, h3, h4, h5, h6, h7, h8⟩ := h
      obtain ⟨a1, a2, a3⟩ := AtKids.inside kids _ _ _ _ h8 a ha
      unfold IT.nodes at hb
      rcases List.mem_cons.1 hb with rfl | hb
      · have hab' : a.x ≤ x := hab
        omega
      · exact AtKids.laminar kids _ _ _ _ h8 a ha b hb hab
theorem AtKids.laminar {m : Mem} : ∀ (ks : List IT) (x ca lo hi : Nat), AtKids m ks x ca lo hi → ∀ a ∈ nodesL ks, ∀ b ∈ nodesL ks, a.x ≤ b.x →
    b ∈ a.nodes ∨ a.stop ≤ b.x
  | [], _, _, _, _, _, a, ha, _, _, _ => by unfold nodesL at ha; cases ha
  | k :: ks, x, ca, lo, hi, h, a, ha, b, hb, hab => by
    unfold AtKids at h
    obtain ⟨h1, h2, h3, h4⟩ := h
    unfold nodesL at ha hb
    rcases List.mem_append.1 ha with ha | ha <;> rcases List.mem_append.1 hb with hb | hb
    · exact At.laminar k h3 a ha b hb hab
    · obtain ⟨-, p2, p3, -⟩ := At.inside k h3 a ha
      obtain ⟨-, q2, q3⟩ := AtKids.inside ks _ _ _ _ h4 b hb
      exact .inr (by omega)
    · obtain ⟨-, p2, p3, -⟩ := At.inside k h3 b hb
      obtain ⟨q1, q2, q3⟩ := AtKids.inside ks _ _ _ _ h4 a ha
      obtain ⟨pb, -⟩ := At.inside k h3 b hb
      have := pb.len_ge
      unfold IT.stop at p3 q2
      omega
    · exact AtKids.laminar ks _ _ _ _ h4 a ha b hb hab
end

/-- items at the same address are the same item -/
theorem At.unique {m : Mem} {t : IT} (h : At m t) {a b : IT} (ha : a ∈ t.nodes) (hb : b ∈ t.nodes) (he : a.x = b.x) : a = b := by
  obtain ⟨a1, -⟩ := At.inside t h a ha
  obtain ⟨b1, -⟩ := At.inside t h b hb
  have la := a1.len_ge
  have lb := b1.len_ge
  have oa := a1.own_le
  have ob := b1.own_le
  rcases At.laminar t h a ha b hb (by omega) with h1 | h1
  · obtain ⟨-, -, -, h4⟩ := At.inside a a1 b h1
    rcases h4 with rfl | h4
    · rfl
    · omega
  · unfold IT.stop at h1; omega

/-- of two items of equal length the later starts after the earlier -/
theorem At.apart {m : Mem} {t : IT} (h : At m t) {a b : IT} (ha : a ∈ t.nodes) (hb : b ∈ t.nodes) (hl : a.len = b.len) (hx : a.x < b.x) : a.stop ≤ b.x := by
  obtain ⟨a1, -⟩ := At.inside t h a ha
  rcases At.laminar t h a ha b hb (by omega) with h1 | h1
  · obtain ⟨-, -, h3, -⟩ := At.inside a a1 b h1
    unfold IT.stop at h3; omega
  · exact h1

/-- the bytes of an item -/
def IT.bytes (m : Mem) (t : IT) : List UInt8 := slice m t.x t.len

theorem bytes_eq {m : Mem} {a b : IT} (h : a.bytes m = b.bytes m) : a.len = b.len ∧ ∀ i, i < a.len → m (a.x + i) = m (b.x + i) := by
  unfold IT.bytes at h
  have hl : a.len = b.len := by have := congrArg List.length h; simpa [slice_length] using this
  refine ⟨hl, fun i hi => ?_⟩
  have := List.getElem_of_eq h (i := i) (by rw [slice_length]; exact hi)
  rwa [slice_getElem, slice_getElem] at this

theorem bytes_of {m : Mem} {a b : IT} (hl : a.len = b.len) (h : ∀ i, i < a.len → m (a.x + i) = m (b.x + i)) : a.bytes m = b.bytes m := by
  unfold IT.bytes
  apply List.ext_getElem
  · simp [slice_length, hl]
  · intro i h1 h2
    rw [slice_getElem, slice_getElem]
    rw [slice_length] at h1
    exact h i h1

/-- moving a fact about memory contents -/
theorem Has.move {m m' : Mem} {a a' : Nat} {bs : List UInt8} (h : Has m a bs) (he : ∀ i, i < bs.length → m' (a' + i) = m (a + i)) : Has m' a' bs := by
  unfold Has at *
  refine Eq.trans ?_ h
  apply List.ext_getElem
  · simp [slice_length]
  · intro i h1 h2
    rw [slice_getElem, slice_getElem]
    rw [slice_length] at h1
    exact he i h1

theorem Has.inj {m : Mem} {a : Nat} {bs cs : List UInt8} (h : Has m a bs) (h' : Has m a cs) (hl : bs.length = cs.length) : bs = cs := by
  unfold Has at *
  rw [← h, ← h', hl]

theorem le32_inj {a b : Int} (ha : isI32 a) (hb : isI32 b) (h : le32 a = le32 b) : a = b := by
  have key : ∀ v, isI32 v → ofU 32 (rdN (le32 v)) = v := by
    intro v hv
    unfold le32 isI32 INT_MIN INT_MAX at *
    rw [rdN_leN, Nat.mod_eq_of_lt (by simpa using toU_lt 32 v), ofU_toU 32 (by omega) v (by omega) (by omega)]
  rw [← key a ha, ← key b hb, h]

theorem le16_inj {a b : Int} (ha : -32768 ≤ a ∧ a ≤ 32767) (hb : -32768 ≤ b ∧ b ≤ 32767) (h : leN 2 (toU 16 a) = leN 2 (toU 16 b)) : a = b := by
  have key : ∀ v : Int, (-32768 ≤ v ∧ v ≤ 32767) → ofU 16 (rdN (leN 2 (toU 16 v))) = v := by
    intro v hv
    rw [rdN_leN, Nat.mod_eq_of_lt (by simpa using toU_lt 16 v), ofU_toU 16 (by omega) v (by omega) (by omega)]
  rw [← key a ha, ← key b hb, h]

/-! ### items with the same bytes -/

theorem At.pcHas {m : Mem} {t : IT} (h : At m t) : t.pc ≤ 32767 ∧ Has m (t.x + 2) (leN 2 (toU 16 t.pc)) := by
  obtain ⟨x, l, p, ks⟩ := t
  unfold At at h
  exact ⟨h.2.2.2.1, h.2.2.2.2.1⟩
theorem At.ccHas {m : Mem} {t : IT} (h : At m t) : Has m (t.x + 4) (le32 t.kids.length) := by
  obtain ⟨x, l, p, ks⟩ := t
  unfold At at h
  exact h.2.2.2.2.2.1
theorem At.lenHas {m : Mem} {t : IT} (h : At m t) : Has m (t.x + 8) (le32 t.len) := by
  obtain ⟨x, l, p, ks⟩ := t
  unfold At at h
  exact h.2.2.2.2.2.2.1

theorem mem_nodesL {n : IT} : ∀ {ks : List IT}, n ∈ nodesL ks ↔ ∃ k ∈ ks, n ∈ k.nodes
  | [] => by unfold nodesL; simp
  | k :: ks => by unfold nodesL; simp [mem_nodesL (ks := ks)]

theorem mem_nodes {n t : IT} : n ∈ t.nodes ↔ n = t ∨ ∃ k ∈ t.kids, n ∈ k.nodes := by
  obtain ⟨x, l, p, ks⟩ := t
  show n ∈ (IT.mk x l p ks).nodes ↔ _ ∨ ∃ k ∈ ks, _
  rw [show (IT.mk x l p ks).nodes = IT.mk x l p ks :: nodesL ks by rw [IT.nodes], List.mem_cons, mem_nodesL]

theorem AtKids.kid {m : Mem} : ∀ (ks : List IT) (x ca lo hi : Nat), AtKids m ks x ca lo hi → ∀ i (hi' : i < ks.length),
    Has m (ca + 4 * i) (le32 ((ks[i].x : Int) - x)) ∧ At m ks[i] ∧ lo ≤ ks[i].x ∧ ks[i].stop ≤ hi
  | [], _, _, _, _, _, i, hi' => by simp at hi'
  | k :: ks, x, ca, lo, hi, h, i, hi' => by
    unfold AtKids at h
    obtain ⟨h1, h2, h3, h4⟩ := h
    have g := aa_ge lo
    have l4 := AtKids.le _ _ _ _ _ h4
    cases i with
    | zero => exact ⟨h1, h3, by simp only [List.getElem_cons_zero]; omega, by simpa using l4⟩
    | succ i =>
      obtain ⟨a, b, c, d⟩ := AtKids.kid ks _ _ _ _ h4 i (by simpa using hi')
      simp only [List.getElem_cons_succ]
      unfold IT.stop at c
      exact ⟨by rw [show ca + 4 * (i + 1) = ca + 4 + 4 * i by omega]; exact a, b, by omega, d⟩

theorem At.kid {m : Mem} {t : IT} (h : At m t) (i : Nat) (hi : i < t.kids.length) :
    Has m (t.x + 12 + 8 * t.pc + 4 * i) (le32 ((t.kids[i].x : Int) - t.x)) ∧ At m t.kids[i] ∧ t.x + t.own ≤ t.kids[i].x ∧ t.kids[i].stop ≤ t.stop := by
  obtain ⟨x, l, p, ks⟩ := t
  unfold At at h
  exact AtKids.kid ks _ _ _ _ h.2.2.2.2.2.2.2 i hi

theorem At.kid_mem {t : IT} (i : Nat) (hi : i < t.kids.length) : t.kids[i] ∈ t.nodes :=
  mem_nodes.2 (.inr ⟨_, List.getElem_mem hi, IT.self_mem _⟩)

theorem IT.own_eq (t : IT) : t.own = if h : 0 < t.kids.length then t.kids[0].x - t.x else t.len := by
  obtain ⟨x, l, p, ks⟩ := t
  cases ks with
  | nil => rfl
  | cons k ks => rfl

theorem same_head {m : Mem} {a b : IT} (ha : At m a) (hb : At m b) (h : a.bytes m = b.bytes m) :
    a.pc = b.pc ∧ a.kids.length = b.kids.length ∧ a.own = b.own ∧
    ∀ i (h1 : i < a.kids.length) (h2 : i < b.kids.length), a.kids[i].x + b.x = b.kids[i].x + a.x ∧ a.kids[i].bytes m = b.kids[i].bytes m := by
  obtain ⟨hl, hbs⟩ := bytes_eq h
  have oa := ha.own_le
  have ob := hb.own_le
  have la := ha.len_ge
  have lb := hb.len_ge
  have mv : ∀ (o : Nat) (bs : List UInt8), o + bs.length ≤ a.len → Has m (a.x + o) bs → Has m (b.x + o) bs := by
    intro o bs h1 h2
    refine h2.move (fun i hi => ?_)
    rw [Nat.add_assoc, Nat.add_assoc]
    exact (hbs (o + i) (by omega)).symm
  have hpc : a.pc = b.pc := by
    have h1 := mv 2 _ (by rw [leN_length]; omega) ha.pcHas.2
    have h2 := le16_inj (by have := ha.pcHas.1; omega) (by have := hb.pcHas.1; omega) (h1.inj hb.pcHas.2 (by simp [leN_length]))
    omega
  have hcc : a.kids.length = b.kids.length := by
    have h1 := mv 4 _ (by rw [le32_length]; omega) ha.ccHas
    have h2 := le32_inj (by unfold isI32 INT_MIN INT_MAX; omega) (by unfold isI32 INT_MIN INT_MAX; omega) (h1.inj hb.ccHas (by simp))
    omega
  have hk : ∀ i (h1 : i < a.kids.length) (h2 : i < b.kids.length), a.kids[i].x + b.x = b.kids[i].x + a.x ∧ a.kids[i].bytes m = b.kids[i].bytes m := by
    intro i h1 h2
    obtain ⟨p1, p2, p3, p4⟩ := ha.kid i h1
    obtain ⟨q1, q2, q3, q4⟩ := hb.kid i h2
    have l1 := p2.len_ge
    have l2 := q2.len_ge
    unfold IT.stop at p4 q4
    have hx : a.kids[i].x + b.x = b.kids[i].x + a.x := by
      have e1 := mv (12 + 8 * a.pc + 4 * i) (le32 ((a.kids[i].x : Int) - a.x)) (by rw [le32_length]; omega) (by simpa only [Nat.add_assoc] using p1)
      rw [hpc] at e1
      have e2 : (a.kids[i].x : Int) - a.x = b.kids[i].x - b.x := le32_inj (by unfold isI32 INT_MIN INT_MAX; omega) (by unfold isI32 INT_MIN INT_MAX; omega)
        (e1.inj (by simpa only [Nat.add_assoc] using q1) (by simp))
      omega
    have hlen : a.kids[i].len = b.kids[i].len := by
      have e1 := mv (a.kids[i].x - a.x + 8) (le32 a.kids[i].len) (by rw [le32_length]; omega)
        (by rw [show a.x + (a.kids[i].x - a.x + 8) = a.kids[i].x + 8 by omega]; exact p2.lenHas)
      rw [show b.x + (a.kids[i].x - a.x + 8) = b.kids[i].x + 8 by omega] at e1
      have e2 : (a.kids[i].len : Int) = b.kids[i].len := le32_inj (by unfold isI32 INT_MIN INT_MAX; omega) (by unfold isI32 INT_MIN INT_MAX; omega)
        (e1.inj q2.lenHas (by simp))
      omega
    refine ⟨hx, bytes_of hlen (fun j hj => ?_)⟩
    have := hbs (a.kids[i].x - a.x + j) (by omega)
    rw [show a.x + (a.kids[i].x - a.x + j) = a.kids[i].x + j by omega, show b.x + (a.kids[i].x - a.x + j) = b.kids[i].x + j by omega] at this
    exact this
  refine ⟨hpc, hcc, ?_, hk⟩
  rw [IT.own_eq, IT.own_eq]
  by_cases h0 : 0 < a.kids.length
  · rw [dif_pos h0, dif_pos (by omega)]
    have := (hk 0 h0 (by omega)).1
    have := (ha.kid 0 h0).2.2.1
    have := (hb.kid 0 (by omega)).2.2.1
    omega
  · rw [dif_neg h0, dif_neg (by omega)]
    exact hl

/-- every item inside an item has its counterpart inside an item with the same bytes -/
theorem same_inside {m : Mem} : ∀ (k : Nat) {a b : IT}, a.len = k → At m a → At m b → a.bytes m = b.bytes m →
    ∀ n ∈ a.nodes, ∃ n' ∈ b.nodes, n'.x + a.x = n.x + b.x ∧ n.bytes m = n'.bytes m := by
  intro k
  induction k using Nat.strongRecOn with
  | _ k ih =>
    intro a b hk ha hb h n hn
    obtain ⟨h1, h2, h3, h4⟩ := same_head ha hb h
    have oa := ha.own_le
    rcases mem_nodes.1 hn with rfl | ⟨c, hc, hn⟩
    · exact ⟨b, b.self_mem, by omega, h⟩
    · obtain ⟨i, hi, rfl⟩ := List.getElem_of_mem hc
      obtain ⟨e1, e2⟩ := h4 i hi (by omega)
      obtain ⟨-, p2, p3, p4⟩ := ha.kid i hi
      obtain ⟨-, q2, q3, q4⟩ := hb.kid i (by omega)
      unfold IT.stop at p4
      obtain ⟨n', f1, f2, f3⟩ := ih _ (by omega) rfl p2 q2 e2 n hn
      exact ⟨n', mem_nodes.2 (.inr ⟨_, List.getElem_mem _, f1⟩), by omega, f3⟩

end BX
