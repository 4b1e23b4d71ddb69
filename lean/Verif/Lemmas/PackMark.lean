import Verif.Lemmas.PackNode
import Verif.Props.Sort
namespace BX
open XBT Spec

/-! ### comparing hashes -/

/-- the number whose digits are the bytes -/
def beVal : List UInt8 → Nat
  | [] => 0
  | b :: bs => b.toNat * 256 ^ bs.length + beVal bs

theorem beVal_lt : ∀ l : List UInt8, beVal l < 256 ^ l.length
  | [] => by simp [beVal]
  | b :: bs => by
    have := beVal_lt bs
    have hb := b.toNat_lt
    unfold beVal
    rw [List.length_cons, Nat.pow_succ]
    have : b.toNat * 256 ^ bs.length + 256 ^ bs.length ≤ 256 ^ bs.length * 256 := by
      rw [← Nat.succ_mul, Nat.mul_comm]
      exact Nat.mul_le_mul_left _ (by omega)
    omega

theorem beVal_cmp : ∀ (a b : List UInt8), a.length = b.length →
    (memcmpB a b < 0 ↔ beVal a < beVal b) ∧ (memcmpB a b = 0 ↔ beVal a = beVal b) ∧ (0 < memcmpB a b ↔ beVal b < beVal a)
  | [], [], _ => by simp [memcmpB, beVal]
  | [], _ :: _, h => by simp at h
  | _ :: _, [], h => by simp at h
  | a :: as, b :: bs, h => by
    have h' : as.length = bs.length := by simpa using h
    obtain ⟨i1, i2, i3⟩ := beVal_cmp as bs h'
    have la := beVal_lt as
    have lb := beVal_lt bs
    unfold memcmpB beVal
    rw [h'] at la ⊢
    have key : ∀ x y : UInt8, x.toNat < y.toNat → x.toNat * 256 ^ bs.length + 256 ^ bs.length ≤ y.toNat * 256 ^ bs.length := by
      intro x y hxy
      rw [← Nat.succ_mul]
      exact Nat.mul_le_mul_right _ hxy
    split
    · next hlt => have := key a b hlt; omega
    · split
      · next hlt => have := key b a hlt; omega
      · have : a.toNat = b.toNat := by omega
        rw [this]
        refine ⟨by rw [i1]; omega, by rw [i2]; omega, by rw [i3]; omega⟩

theorem beVal_inj : ∀ (a b : List UInt8), a.length = b.length → beVal a = beVal b → a = b
  | [], [], _, _ => rfl
  | [], _ :: _, h, _ => by simp at h
  | _ :: _, [], h, _ => by simp at h
  | a :: as, b :: bs, h, he => by
    have h' : as.length = bs.length := by simpa using h
    have la := beVal_lt as
    have lb := beVal_lt bs
    unfold beVal at he
    rw [h'] at la he
    have key : ∀ x y : UInt8, x.toNat < y.toNat → x.toNat * 256 ^ bs.length + 256 ^ bs.length ≤ y.toNat * 256 ^ bs.length := by
      intro x y hxy
      rw [← Nat.succ_mul]
      exact Nat.mul_le_mul_right _ hxy
    rcases Nat.lt_trichotomy a.toNat b.toNat with h1 | h1 | h1
    · have := key a b h1; omega
    · rw [h1] at he
      rw [UInt8.toNat_inj.1 h1, beVal_inj as bs h' (by omega)]
    · have := key b a h1; omega

theorem hash192_length (h : List UInt8) : (hash192 h).length = 24 := by simp [hash192]
theorem hash192_idem (h : List UInt8) : hash192 (hash192 h) = hash192 h := by
  unfold hash192
  rw [List.take_append_of_le_length (by simp), List.take_take]
  simp

/-- the key by which entries are grouped -/
def hkey (p : List UInt8 × Int) : Nat := beVal (hash192 p.1)

theorem hkey_eq {p q : List UInt8 × Int} : hkey p = hkey q ↔ hash192 p.1 = hash192 q.1 := by
  constructor
  · exact beVal_inj _ _ (by simp [hash192_length])
  · intro h; unfold hkey; rw [h]

theorem nodeCmp_le {p q : List UInt8 × Int} : nodeCmp p q ≤ 0 ↔ hkey p < hkey q ∨ (hkey p = hkey q ∧ p.2 ≤ q.2) := by
  obtain ⟨h1, h2, h3⟩ := beVal_cmp (hash192 p.1) (hash192 q.1) (by simp [hash192_length])
  unfold nodeCmp hkey
  simp only
  split
  · next h => omega
  · next h =>
    split
    · omega
    · split <;> omega

theorem nodeCmp_comparator : Comparator nodeCmp where
  flip x y := by
    have h1 := nodeCmp_le (p := x) (q := y)
    have h2 := nodeCmp_le (p := y) (q := x)
    obtain ⟨g1, g2, g3⟩ := beVal_cmp (hash192 x.1) (hash192 y.1) (by simp [hash192_length])
    obtain ⟨g1', g2', g3'⟩ := beVal_cmp (hash192 y.1) (hash192 x.1) (by simp [hash192_length])
    unfold nodeCmp
    simp only
    split <;> split <;> (try split) <;> (try split) <;> (try split) <;> (try split) <;> omega
  trans x y z h1 h2 := by
    rw [nodeCmp_le] at *
    omega

/-! ### filling the tables -/

/-- the entry of an item -/
def entry (H : List UInt8 → List UInt8) (m : Mem) (n : IT) : List UInt8 × Int := (hash192 (H (n.bytes m)), n.x)

theorem nodesL_append : ∀ (a b : List IT), nodesL (a ++ b) = nodesL a ++ nodesL b
  | [], b => by simp [nodesL]
  | k :: ks, b => by simp [nodesL, nodesL_append ks b]

theorem nodesL_length : ∀ (a : List IT), a.length ≤ (nodesL a).length
  | [] => by simp [nodesL]
  | k :: ks => by
    have := nodesL_length ks
    obtain ⟨x, l, p, cs⟩ := k
    simp only [nodesL, IT.nodes, List.length_cons, List.length_append]
    omega

theorem kidLinks_spec {m : Mem} {limit : Nat} {x : Nat} : ∀ (ks : List IT) (ca lo hi : Nat), AtKids m ks x ca lo hi → ca + 4 * ks.length ≤ limit → x + 12 ≤ ca →
    x ≤ lo → hi < 2147483648 → (⟨m, limit⟩ : Img).kidLinks x ks.length ca = .ok (ks.map fun k => (k.x : Int))
  | [], _, _, _, _, _, _, _, _ => rfl
  | k :: ks, ca, lo, hi, h, hl, hx, hlo, hhi => by
    unfold AtKids at h
    obtain ⟨h1, h2, h3, h4⟩ := h
    have g := aa_ge lo
    have l4 := AtKids.le _ _ _ _ _ h4
    have l3 := h3.len_ge
    have l5 : k.stop = k.x + k.len := rfl
    simp only [List.length_cons] at hl ⊢
    unfold Img.kidLinks
    rw [Img.i32_ok (f := ⟨m, limit⟩) h1 (by simp only; omega) (by unfold isI32 INT_MIN INT_MAX; omega) _ rfl]
    simp only [Out.ok_bind]
    have := kidLinks_spec (limit := limit) ks (ca + 4) k.stop hi h4 (by omega) (by omega) (by omega) hhi
    rw [show (ca : Int) + 4 = ((ca + 4 : Nat) : Int) by omega, this]
    simp only [Out.ok_bind, Out.pure_eq, List.map_cons]
    congr 2
    omega

theorem links_spec {m : Mem} {limit : Nat} {t : IT} (h : At m t) (hl : t.stop ≤ limit) : (⟨m, limit⟩ : Img).links t.x = .ok (t.kids.map fun k => (k.x : Int)) := by
  have o := h.own_le
  have l := h.len_ge
  have p := h.pcHas
  have hs : t.stop = t.x + t.len := rfl
  unfold Img.links
  rw [show (⟨m, limit⟩ : Img).childcount t.x = .ok (t.kids.length : Int) from
    Img.i32_ok (f := ⟨m, limit⟩) h.ccHas (by simp only; omega) (by unfold isI32 INT_MIN INT_MAX; omega) _ (by omega)]
  simp only [Out.ok_bind]
  by_cases h0 : t.kids.length = 0
  · rw [if_neg (by omega), List.eq_nil_of_length_eq_zero h0]; rfl
  · rw [if_pos (by omega)]
    unfold Img.childrenAt
    rw [show (⟨m, limit⟩ : Img).paramcount t.x = .ok (t.pc : Int) from
      Img.i16_ok (f := ⟨m, limit⟩) p.2 (by simp only; omega) (by omega) _ (by omega)]
    simp only [Out.ok_bind, Out.pure_eq]
    have hak : AtKids m t.kids t.x (t.x + 12 + 8 * t.pc) (t.x + t.own) t.stop := by
      obtain ⟨x, l, p, ks⟩ := t
      unfold At at h
      exact h.2.2.2.2.2.2.2
    rw [show (t.x : Int) + 12 + 8 * (t.pc : Int) = ((t.x + 12 + 8 * t.pc : Nat) : Int) by omega, Int.toNat_natCast]
    exact kidLinks_spec _ _ _ _ hak (by omega) (by omega) (by omega) (by omega)

theorem nodeBytes_spec {m : Mem} {limit : Nat} {t : IT} (h : At m t) (hl : t.stop ≤ limit) : (⟨m, limit⟩ : Img).nodeBytes t.x = .ok (t.bytes m) := by
  have l := h.len_ge
  have hs : t.stop = t.x + t.len := rfl
  unfold Img.nodeBytes
  rw [show (⟨m, limit⟩ : Img).length t.x = .ok (t.len : Int) from
    Img.i32_ok (f := ⟨m, limit⟩) h.lenHas (by simp only; omega) (by unfold isI32 INT_MIN INT_MAX; omega) _ (by omega)]
  simp only [Out.ok_bind]
  rw [if_neg (by omega)]
  unfold Img.rd
  rw [if_pos (by simp only; omega)]
  rfl

theorem collect_spec (H : List UInt8 → List UInt8) {m : Mem} {limit total : Nat} : ∀ (fuel : Nat) (done : List (List UInt8 × Int)) (pend : List IT),
    (∀ p ∈ pend, At m p ∧ p.stop ≤ limit) → (nodesL pend).length ≤ fuel → done.length + (nodesL pend).length ≤ total →
    ∃ l, collect H ⟨m, limit⟩ total fuel done (pend.map fun k => (k.x : Int)) = .ok l ∧ l.Perm (done ++ (nodesL pend).map (entry H m)) := by
  intro fuel
  induction fuel with
  | zero =>
    intro done pend h1 h2 h3
    have := nodesL_length pend
    have : pend = [] := List.eq_nil_of_length_eq_zero (by omega)
    subst this
    exact ⟨done, by simp [collect], by simp [nodesL]⟩
  | succ fuel ih =>
    intro done pend h1 h2 h3
    cases pend with
    | nil => exact ⟨done, by simp [collect], by simp [nodesL]⟩
    | cons p ps =>
      obtain ⟨hp, hpl⟩ := h1 p (by simp)
      have hnodes : p.nodes = p :: nodesL p.kids := by
        obtain ⟨x, l, q, cs⟩ := p
        rw [IT.nodes]; rfl
      have hlen : (nodesL (p :: ps)).length = 1 + (nodesL p.kids).length + (nodesL ps).length := by
        rw [nodesL, hnodes]; simp; omega
      have g1 := nodesL_length p.kids
      have g2 := nodesL_length ps
      have hk : ∀ k ∈ ps ++ p.kids, At m k ∧ k.stop ≤ limit := by
        intro k hk
        rcases List.mem_append.1 hk with hk | hk
        · exact h1 k (List.mem_cons_of_mem _ hk)
        · obtain ⟨i, hi, rfl⟩ := List.getElem_of_mem hk
          obtain ⟨-, k2, -, k4⟩ := hp.kid i hi
          exact ⟨k2, by omega⟩
      obtain ⟨l, l1, l2⟩ := ih (done ++ [entry H m p]) (ps ++ p.kids) hk (by rw [nodesL_append]; simp; omega) (by rw [nodesL_append]; simp; omega)
      refine ⟨l, ?_, ?_⟩
      · rw [List.map_cons]
        unfold collect
        rw [links_spec hp hpl]
        simp only [Out.ok_bind, List.length_map]
        rw [if_neg (by omega), nodeBytes_spec hp hpl]
        simp only [Out.ok_bind]
        rw [← List.map_append]
        exact l1
      · refine l2.trans ?_
        rw [nodesL_append, nodesL, hnodes, List.map_append, List.append_assoc, List.map_append, List.map_cons]
        refine List.Perm.append_left _ ?_
        simp only [List.cons_append, List.nil_append]
        exact List.Perm.cons _ List.perm_append_comm

/-! ### marking -/

/-- some entry with the same hash has a smaller address -/
def IsCopy (l : List (List UInt8 × Int)) (p : List UInt8 × Int) : Prop := ∃ q ∈ l, hkey q = hkey p ∧ q.2 < p.2

theorem markLoop_spec {limit : Nat} : ∀ (rest : List (List UInt8 × Int)) (first : List UInt8 × Int) (m : Mem),
    (first :: rest).Pairwise (fun p q => hkey p < hkey q ∨ (hkey p = hkey q ∧ p.2 < q.2)) →
    (∀ p ∈ rest, 0 ≤ p.2 ∧ p.2 + 8 ≤ limit) → rest.Pairwise (fun p q => p.2 + 8 ≤ q.2 ∨ q.2 + 8 ≤ p.2) →
    ∃ m', markLoop limit first rest m = .ok m' ∧
      (∀ a : Nat, (∀ p ∈ rest, IsCopy (first :: rest) p → ¬ (p.2 ≤ a ∧ a < p.2 + 8)) → m' a = m a) ∧
      (∀ p ∈ rest, IsCopy (first :: rest) p → ∃ q ∈ first :: rest, hkey q = hkey p ∧ (∀ q' ∈ first :: rest, hkey q' = hkey p → q.2 ≤ q'.2) ∧
        Has m' p.2.toNat (leN 2 (toU 16 (-7))) ∧ Has m' (p.2.toNat + 4) (le32 (q.2 - p.2)))
  | [], first, m, _, _, _ => ⟨m, rfl, fun _ _ => rfl, by intro p hp; cases hp⟩
  | n :: rest, first, m, hs, hin, hap => by
    obtain ⟨s1, s2⟩ := List.pairwise_cons.1 hs
    obtain ⟨s3, s4⟩ := List.pairwise_cons.1 s2
    obtain ⟨a1, a2⟩ := List.pairwise_cons.1 hap
    have sn := s1 n (by simp)
    obtain ⟨n1, n2⟩ := hin n (by simp)
    unfold markLoop
    by_cases hk : hkey n = hkey first
    · have hk' := hkey_eq.1 hk
      rw [if_pos hk', if_neg (by omega), put_eq (by rw [leN_length]; omega)]
      simp only [Out.ok_bind]
      rw [put_eq (by rw [le32_length]; omega)]
      simp only [Out.ok_bind]
      obtain ⟨m', e, f1, f2⟩ := markLoop_spec rest first (memPut (memPut m n.2.toNat (leN 2 (toU 16 (-7)))) (n.2.toNat + 4) (le32 (first.2 - n.2)))
        (List.pairwise_cons.2 ⟨fun p hp => s1 p (List.mem_cons_of_mem _ hp), s4⟩) (fun p hp => hin p (List.mem_cons_of_mem _ hp)) a2
      have hcopy : ∀ p ∈ rest, IsCopy (first :: n :: rest) p ↔ IsCopy (first :: rest) p := by
        intro p hp
        constructor
        · rintro ⟨q, q1, q2, q3⟩
          rcases List.mem_cons.1 q1 with rfl | q1
          · exact ⟨_, by simp, q2, q3⟩
          · rcases List.mem_cons.1 q1 with rfl | q1
            · exact ⟨first, by simp, by omega, by omega⟩
            · exact ⟨q, List.mem_cons_of_mem _ q1, q2, q3⟩
        · rintro ⟨q, q1, q2, q3⟩
          rcases List.mem_cons.1 q1 with rfl | q1
          · exact ⟨_, by simp, q2, q3⟩
          · exact ⟨q, by simp [q1], q2, q3⟩
      have hnc : IsCopy (first :: n :: rest) n := ⟨first, by simp, by omega, by omega⟩
      refine ⟨m', e, ?_, ?_⟩
      · intro a ha
        have hn := ha n (by simp) hnc
        rw [f1 a (fun p hp hc => ha p (List.mem_cons_of_mem _ hp) ((hcopy p hp).2 hc)), memPut_frame _ _ _ _ (by rw [le32_length]; omega),
          memPut_frame _ _ _ _ (by rw [leN_length]; omega)]
      · intro p hp hc
        rcases List.mem_cons.1 hp with rfl | hp
        · refine ⟨first, by simp, by omega, ?_, ?_, ?_⟩
          · intro q' q1 q2
            rcases List.mem_cons.1 q1 with rfl | q1
            · omega
            · have := s1 q' q1; omega
          · refine Has.congr (m := memPut (memPut m p.2.toNat (leN 2 (toU 16 (-7)))) (p.2.toNat + 4) (le32 (first.2 - p.2))) ?_ (fun i i1 i2 => ?_)
            · exact (Has.self _ _ _).frame (by rw [leN_length]; omega)
            · rw [leN_length] at i2
              refine f1 i (fun q hq hcq => ?_)
              have := a1 q hq
              omega
          · refine Has.congr (m := memPut (memPut m p.2.toNat (leN 2 (toU 16 (-7)))) (p.2.toNat + 4) (le32 (first.2 - p.2))) (Has.self _ _ _) (fun i i1 i2 => ?_)
            rw [le32_length] at i2
            refine f1 i (fun q hq hcq => ?_)
            have := a1 q hq
            omega
        · obtain ⟨q, q1, q2, q3, q4⟩ := f2 p hp ((hcopy p hp).1 hc)
          refine ⟨q, ?_, q2, ?_, q4⟩
          · rcases List.mem_cons.1 q1 with rfl | q1
            · simp
            · simp [q1]
          · intro q' q1' q2'
            rcases List.mem_cons.1 q1' with rfl | q1'
            · exact q3 _ (by simp) q2'
            · rcases List.mem_cons.1 q1' with rfl | q1'
              · have := q3 first (by simp) (by omega)
                omega
              · exact q3 q' (List.mem_cons_of_mem _ q1') q2'
    · have hk' : ¬ hash192 n.1 = hash192 first.1 := fun h => hk (hkey_eq.2 h)
      rw [if_neg hk']
      obtain ⟨m', e, f1, f2⟩ := markLoop_spec rest n m s2 (fun p hp => hin p (List.mem_cons_of_mem _ hp)) a2
      have hkf : ∀ p ∈ n :: rest, hkey p ≠ hkey first := by
        intro p hp
        rcases List.mem_cons.1 hp with rfl | hp
        · exact hk
        · have := s3 p hp; omega
      have hcopy : ∀ p ∈ n :: rest, IsCopy (first :: n :: rest) p ↔ IsCopy (n :: rest) p := by
        intro p hp
        constructor
        · rintro ⟨q, q1, q2, q3⟩
          rcases List.mem_cons.1 q1 with rfl | q1
          · exact absurd q2.symm (hkf p hp)
          · exact ⟨q, q1, q2, q3⟩
        · rintro ⟨q, q1, q2, q3⟩
          exact ⟨q, List.mem_cons_of_mem _ q1, q2, q3⟩
      have hnc : ¬ IsCopy (first :: n :: rest) n := by
        rw [hcopy n (by simp)]
        rintro ⟨q, q1, q2, q3⟩
        rcases List.mem_cons.1 q1 with rfl | q1
        · omega
        · have := s3 q q1; omega
      refine ⟨m', e, ?_, ?_⟩
      · intro a ha
        exact f1 a (fun p hp hc => ha p (List.mem_cons_of_mem _ hp) ((hcopy p (List.mem_cons_of_mem _ hp)).2 hc))
      · intro p hp hc
        rcases List.mem_cons.1 hp with rfl | hp
        · exact absurd hc hnc
        · obtain ⟨q, q1, q2, q3, q4⟩ := f2 p hp ((hcopy p (List.mem_cons_of_mem _ hp)).1 hc)
          refine ⟨q, List.mem_cons_of_mem _ q1, q2, ?_, q4⟩
          intro q' q1' q2'
          rcases List.mem_cons.1 q1' with rfl | q1'
          · exact absurd q2'.symm (hkf p (List.mem_cons_of_mem _ hp))
          · exact q3 q' q1' q2'

theorem nodes_nodup {m : Mem} : ∀ (t : IT), At m t → (t.nodes.Pairwise fun a b => a.x < b.x)
  | .mk x len pc kids, h => by
    have hin := At.inside _ h
    have ho := h.own_le
    have key : ∀ (ks : List IT) (ca lo hi : Nat), AtKids m ks x ca lo hi → (∀ k ∈ ks, k.nodes.Pairwise fun a b => a.x < b.x) → (nodesL ks).Pairwise fun a b => a.x < b.x := by
      intro ks
      induction ks with
      | nil => intros; unfold nodesL; exact List.Pairwise.nil
      | cons k ks ih =>
        intro ca lo hi hk hp
        unfold AtKids at hk
        obtain ⟨h1, h2, h3, h4⟩ := hk
        unfold nodesL
        rw [List.pairwise_append]
        refine ⟨hp k (by simp), ih _ _ _ h4 (fun k' hk' => hp k' (List.mem_cons_of_mem _ hk')), ?_⟩
        intro a ha b hb
        obtain ⟨a1, -, a3, -⟩ := At.inside k h3 a ha
        obtain ⟨-, b2, -⟩ := AtKids.inside ks _ _ _ _ h4 b hb
        have := a1.len_ge
        unfold IT.stop at a3 b2
        omega
    have hk : ∀ k ∈ kids, k.nodes.Pairwise fun a b => a.x < b.x := by
      intro k hk
      obtain ⟨i, hi, rfl⟩ := List.getElem_of_mem hk
      exact nodes_nodup _ (h.kid i hi).2.1
    unfold IT.nodes at hin ⊢
    rw [List.pairwise_cons]
    have h' := h
    unfold At at h'
    refine ⟨?_, key _ _ _ _ h'.2.2.2.2.2.2.2 hk⟩
    intro b hb
    obtain ⟨-, b2, -⟩ := AtKids.inside kids _ _ _ _ h'.2.2.2.2.2.2.2 b hb
    show x < b.x
    omega
termination_by t => sizeOf t

/-- the smallest address of an item with the same bytes -/
def repOf (m : Mem) (T : IT) (x : Nat) : Nat :=
  match T.nodes.find? (fun n => n.x == x) with
  | none => x
  | some n =>
    match T.nodes.find? (fun n' => n'.bytes m == n.bytes m) with
    | none => x
    | some n' => n'.x

theorem repOf_spec {m : Mem} {T : IT} (hT : At m T) : (∀ n ∈ T.nodes, ∃ r ∈ T.nodes, r.x = repOf m T n.x ∧ r.x ≤ n.x ∧ r.bytes m = n.bytes m) ∧
    (∀ n ∈ T.nodes, ∀ n' ∈ T.nodes, n.bytes m = n'.bytes m → repOf m T n.x ≤ n'.x) := by
  have hnd := nodes_nodup T hT
  have key : ∀ n ∈ T.nodes, ∃ r ∈ T.nodes, r.x = repOf m T n.x ∧ r.bytes m = n.bytes m ∧ ∀ n' ∈ T.nodes, n'.bytes m = n.bytes m → r.x ≤ n'.x := by
    intro n hn
    have h1 : T.nodes.find? (fun a => a.x == n.x) = some n := by
      cases h : T.nodes.find? (fun a => a.x == n.x) with
      | none => rw [List.find?_eq_none] at h; exact absurd (h n hn) (by simp)
      | some a =>
        have a1 := List.mem_of_find?_eq_some h
        have a2 := List.find?_some h
        rw [At.unique hT a1 hn (by simpa using a2)]
    cases h : T.nodes.find? (fun n' => n'.bytes m == n.bytes m) with
    | none => rw [List.find?_eq_none] at h; exact absurd (h n hn) (by simp)
    | some r =>
      refine ⟨r, List.mem_of_find?_eq_some h, ?_, by simpa using List.find?_some h, ?_⟩
      · unfold repOf
        rw [h1]
        simp only
        rw [h]
      · intro n' hn' he
        obtain ⟨-, as, bs, hsplit, hbefore⟩ := List.find?_eq_some_iff_append.1 h
        rw [hsplit] at hn' hnd
        rcases List.mem_append.1 hn' with h2 | h2
        · exact absurd (hbefore n' h2) (by simp [he])
        · rcases List.mem_cons.1 h2 with rfl | h2
          · exact Nat.le_refl _
          · have := (List.pairwise_cons.1 (List.pairwise_append.1 hnd).2.1).1 n' h2
            omega
  refine ⟨?_, ?_⟩
  · intro n hn
    obtain ⟨r, r1, r2, r3, r4⟩ := key n hn
    exact ⟨r, r1, r2, r4 n hn rfl, r3⟩
  · intro n hn n' hn' he
    obtain ⟨r, r1, r2, r3, r4⟩ := key n hn
    have := r4 n' hn' he.symm
    omega

/-- C34 (internal): marking finds exactly the items whose bytes occur earlier -/
theorem markReferences_spec (H : List UInt8 → List UInt8) {m : Mem} {T : IT} (hT : At m T) (h0 : T.x = 0) {limit total : Nat} (hl : T.stop ≤ limit)
    (htot : T.nodes.length = total) (hinj : ∀ n ∈ T.nodes, ∀ n' ∈ T.nodes, hash192 (H (n.bytes m)) = hash192 (H (n'.bytes m)) → n.bytes m = n'.bytes m) :
    ∃ S, markReferences H limit total m = .ok S ∧ Marks m S T (repOf m T) := by
  have hnl : nodesL [T] = T.nodes := by simp [nodesL]
  obtain ⟨l, l1, l2⟩ := collect_spec H (m := m) (limit := limit) (total := total) total [] [T] (by simp [hT, hl]) (by rw [hnl]; omega) (by rw [hnl]; simp [htot])
  rw [hnl, List.nil_append] at l2
  simp only [List.map_cons, List.map_nil, h0, Int.natCast_zero] at l1
  have hll : l.length = total := by rw [l2.length_eq]; simp [htot]
  obtain ⟨r, r1, r2, r3⟩ := C22_mergesort nodeCmp l l rfl
  obtain ⟨r4, -⟩ := r3 nodeCmp_comparator
  have r5 : r.Perm (T.nodes.map (entry H m)) := r2.trans l2
  have hne : r ≠ [] := by
    rintro rfl
    have := r5.length_eq
    have h1 := T.self_mem
    have : T.nodes = [] := by simpa using this.symm
    rw [this] at h1; cases h1
  obtain ⟨first, rest, rfl⟩ := List.exists_cons_of_ne_nil hne
  have hmem : ∀ p, p ∈ first :: rest ↔ ∃ n ∈ T.nodes, entry H m n = p := by
    intro p
    rw [r5.mem_iff, List.mem_map]
  have hnd := nodes_nodup T hT
  have hpx : (first :: rest).Pairwise (fun p q => p.2 + 8 ≤ q.2 ∨ q.2 + 8 ≤ p.2) := by
    refine (List.Perm.pairwise_iff ?_ r5.symm).1 ?_
    · intro x y h; omega
    · rw [List.pairwise_map]
      refine hnd.imp_of_mem ?_
      intro a b ha hb hab
      have a1 := (At.inside T hT a ha).1
      have b1 := (At.inside T hT b hb).1
      have al := a1.own_le
      refine .inl ?_
      show (a.x : Int) + 8 ≤ b.x
      rcases At.laminar T hT a ha b hb (by omega) with h | h
      · rcases (At.inside a a1 b h).2.2.2 with rfl | h <;> omega
      · unfold IT.stop at h; omega
  have hin : ∀ p ∈ first :: rest, 0 ≤ p.2 ∧ p.2 + 8 ≤ limit := by
    intro p hp
    obtain ⟨n, n1, rfl⟩ := (hmem p).1 hp
    obtain ⟨n2, -, n3, -⟩ := At.inside T hT n n1
    have := n2.len_ge
    unfold IT.stop at n3 hl
    show 0 ≤ (n.x : Int) ∧ (n.x : Int) + 8 ≤ limit
    omega
  have hsorted : (first :: rest).Pairwise (fun p q => hkey p < hkey q ∨ (hkey p = hkey q ∧ p.2 < q.2)) := by
    have := List.Pairwise.and r4 hpx
    refine this.imp ?_
    rintro p q ⟨c1, c2⟩
    rw [nodeCmp_le] at c1
    omega
  obtain ⟨S, e, f1, f2⟩ := markLoop_spec (limit := limit) rest first m hsorted (fun p hp => hin p (List.mem_cons_of_mem _ hp)) (List.pairwise_cons.1 hpx).2
  have hkb : ∀ n ∈ T.nodes, ∀ n' ∈ T.nodes, (hkey (entry H m n) = hkey (entry H m n') ↔ n.bytes m = n'.bytes m) := by
    intro n hn n' hn'
    rw [hkey_eq]
    unfold entry
    simp only [hash192_idem]
    exact ⟨hinj n hn n' hn', fun h => by rw [h]⟩
  obtain ⟨rs1, rs2⟩ := repOf_spec hT
  have hcopy : ∀ n ∈ T.nodes, (IsCopy (first :: rest) (entry H m n) ↔ repOf m T n.x < n.x) := by
    intro n hn
    constructor
    · rintro ⟨q, q1, q2, q3⟩
      obtain ⟨n', n1, rfl⟩ := (hmem q).1 q1
      have := rs2 n hn n' n1 ((hkb n' n1 n hn).1 q2).symm
      have h3 : (n'.x : Int) < n.x := q3
      omega
    · intro h
      obtain ⟨r, r1, r2, r3, r4⟩ := rs1 n hn
      exact ⟨entry H m r, (hmem _).2 ⟨r, r1, rfl⟩, (hkb r r1 n hn).2 r4, by show (r.x : Int) < n.x; omega⟩
  have hrest : ∀ n ∈ T.nodes, repOf m T n.x < n.x → entry H m n ∈ rest := by
    intro n hn h
    rcases List.mem_cons.1 ((hmem _).2 ⟨n, hn, rfl⟩) with h1 | h1
    · obtain ⟨q, q1, q2, q3⟩ := (hcopy n hn).2 h
      rcases List.mem_cons.1 q1 with rfl | q1
      · rw [h1] at q3; omega
      · have := (List.pairwise_cons.1 hsorted).1 q q1
        rw [h1] at q2 q3
        omega
    · exact h1
  refine ⟨S, ?_, rs1, rs2, ?_, ?_⟩
  · unfold markReferences
    rw [l1]
    simp only [Out.ok_bind]
    rw [hll, Nat.sub_self, List.replicate_zero, List.append_nil, r1]
    simp only [Out.ok_bind]
    exact e
  · intro n hn h
    obtain ⟨q, q1, q2, q3, q4, q5⟩ := f2 _ (hrest n hn h) ((hcopy n hn).2 h)
    obtain ⟨n', n1, rfl⟩ := (hmem q).1 q1
    have hq : repOf m T n.x = n'.x := by
      obtain ⟨r, r1, r2, r3, r4⟩ := rs1 n hn
      have h1 := rs2 n hn n' n1 ((hkb n' n1 n hn).1 q2).symm
      have h2 := q3 (entry H m r) ((hmem _).2 ⟨r, r1, rfl⟩) ((hkb r r1 n hn).2 r4)
      have h2' : (n'.x : Int) ≤ r.x := h2
      omega
    simp only [entry, Int.toNat_natCast] at q4 q5
    rw [hq]
    exact ⟨q4, q5⟩
  · intro a ha
    refine f1 a (fun p hp hc => ?_)
    obtain ⟨n, n1, rfl⟩ := (hmem p).1 (List.mem_cons_of_mem _ hp)
    have := ha n n1 ((hcopy n n1).1 hc)
    simp only [entry]
    omega

end BX
