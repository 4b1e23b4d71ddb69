import Verif.Lemmas.CrashMove
import Verif.Props.CrashClear
/-
C69: the process is killed while it clears a document whose names are moved.
-/
namespace BX
open XBT Spec

/-- what `Clear` does with names that are moved to free places, store by store -/
theorem move_stores {P : Pool} {D : Doc} {els V fl} (k : Keeps P D els V fl) (h : Away P D)
    (hroom : poolHeader + symsLen (D.syms true) + symsLen (D.syms false) + 4 * (D.syms true).length + 4 * (D.syms false).length ≤ P.limit) :
    ∃ Q ss, P.clear = .ok (Q, true) ∧ Pool.clearStores { P with root := 0 } = .ok ss ∧ Pool.stores { P with root := 0 } ss = .ok Q ∧
      ∀ C, Pool.KilledIn { P with root := 0 } ss C → (∃ r, Keeps C { D.cleared with ready := r } [] (fun _ _ => 0) (fun _ => 0)) ∨
        ∃ b, (C.tab b).names ≠ (P.tab b).names ∧ (C.tab b).index = (P.tab b).index ∧ (P.tab b).index ≠ 0 := by
  obtain ⟨kM, hM⟩ := moved_keeps k h
  have hP := k.sees.ok
  have hP0 : PoolOk { P with root := 0 } := ⟨hP.head, hP.al, hP.le, hP.lim, hP.map, hP.page⟩
  have kt : TabOk { P with root := 0 } P.tags (D.syms true) := (k.tabs true).frame (Nat.le_refl _) fun _ _ => rfl
  have kp : TabOk { P with root := 0 } P.params (D.syms false) := (k.tabs false).frame (Nat.le_refl _) fun _ _ => rfl
  have hhd : 0 < poolHeader := by decide
  have n1 : poolHeader + symsLen (D.syms true) + symsLen (D.syms false) ≤ P.tags.names := h.names true
  have n2 : poolHeader + symsLen (D.syms true) + symsLen (D.syms false) ≤ P.params.names := h.names false
  obtain ⟨-, -, t3, t4⟩ := kt.names (by omega)
  obtain ⟨-, -, p3, p4⟩ := kp.names (by omega)
  replace t3 : P.tags.names + _ ≤ P.alloc := t3
  replace p3 : P.params.names + _ ≤ P.alloc := p3
  replace t4 : Has P.mem P.tags.names _ := t4
  replace p4 : Has P.mem P.params.names _ := p4
  have hal := hP.le
  have hlim := hP.lim
  have e1 := namesSize_ok hP0 kt
  have e2 := namesSize_ok hP0 kp
  have lt : (encSyms 0 (D.syms true)).length = symsLen (D.syms true) := by rw [encSyms_length]
  have lp : (encSyms 0 (D.syms false)).length = symsLen (D.syms false) := by rw [encSyms_length]
  -- behind the moves
  obtain ⟨A, a1, a2, a3, a4, a5⟩ := empty_part kM hM
  have hs1 : ∀ b, D.cleared.syms b = D.syms b := fun _ => rfl
  simp only [hs1] at a1 a2 a3 a5
  have hAt : A.tab true = { P.tags with names := poolHeader, index := 0 } := by rw [a2]; rfl
  have hAp : A.tab false = { P.params with names := poolHeader + symsLen (D.syms true), index := 0 } := by rw [a2]; rfl
  have hAa : A.alloc = poolHeader + symsLen (D.syms true) + symsLen (D.syms false) := by rw [a2]
  have hAl : A.limit = P.limit := by rw [a2]; rfl
  obtain ⟨B, ts, b1, b2, b3, b4, b5, b6, b7, b8⟩ := table_part a4 (b := true) (by rw [hAt]) (by rw [hAa, hAl]; show _ + 4 * (D.syms true).length ≤ _; omega)
  obtain ⟨Q, ps, c1, c2, c3, c4, c5, c6, c7, c8⟩ := table_part b7 (b := false) (by rw [b6 false (by decide), hAp]) (by rw [b5, b4, hAa, hAl]; show _ + 4 * (D.syms true).length + 4 * (D.syms false).length ≤ _; omega)
  -- the moves
  have r1 : (Pool.img { P with root := 0 }).rd P.tags.names (symsLen (D.syms true)) = .ok (encSyms 0 (D.syms true)) :=
    rd_eq (f := Pool.img { P with root := 0 }) (a := P.tags.names) t4 lt (by show _ ≤ P.fileSize; omega)
  have r2 : (Pool.img { P with root := 0 }).rd P.params.names (symsLen (D.syms false)) = .ok (encSyms 0 (D.syms false)) :=
    rd_eq (f := Pool.img { P with root := 0 }) (a := P.params.names) p4 lp (by show _ ≤ P.fileSize; omega)
  have w1 := Pool.wr_eq (P := { P with root := 0 }) (a := poolHeader) (bs := encSyms 0 (D.syms true)) (by rw [lt]; show _ ≤ P.fileSize; omega) (poolHeader : Nat) rfl
  have w2 := Pool.wr_eq (P := { P with root := 0, mem := memPut P.mem poolHeader (encSyms 0 (D.syms true)) }) (a := poolHeader + symsLen (D.syms true)) (bs := encSyms 0 (D.syms false))
    (by rw [lp]; show _ ≤ P.fileSize; omega) (poolHeader + symsLen (D.syms true) : Nat) rfl
  generalize hm1 : memPut P.mem poolHeader (encSyms 0 (D.syms true)) = m1 at *
  have hfr : ∀ i, poolHeader + symsLen (D.syms true) + symsLen (D.syms false) ≤ i → m1 i = P.mem i := fun i hi => by rw [← hm1]; exact memPut_frame _ _ _ _ (Or.inr (by omega))
  have hMd : P.movedTo D = { P with root := 0, tags := { P.tags with names := poolHeader, index := 0 }, params := { P.params with names := poolHeader + symsLen (D.syms true), index := 0 }, mem := memPut m1 (poolHeader + symsLen (D.syms true)) (encSyms 0 (D.syms false)) } := by
    unfold Pool.movedTo; rw [hm1]
  generalize hm2 : memPut m1 (poolHeader + symsLen (D.syms true)) (encSyms 0 (D.syms false)) = m2 at *
  have hfr2 : ∀ i, poolHeader + symsLen (D.syms true) + symsLen (D.syms false) ≤ i → m2 i = P.mem i := fun i hi => by rw [← hm2]; exact (memPut_frame _ _ _ _ (Or.inr (by omega))).trans (hfr i hi)
  obtain ⟨ms, hms, hmf, hmst⟩ : ∃ ms, Pool.moveStores { P with root := 0 } (symsLen (D.syms true)) (symsLen (D.syms false)) = .ok ms ∧
      (∀ s ∈ ms, InFront (poolHeader + symsLen (D.syms true) + symsLen (D.syms false)) s) ∧ Pool.stores { P with root := 0 } ms = .ok { P with root := 0, mem := m2 } := by
    have z : ∀ (m : Mem) (a : Nat) (l : List Sym), symsLen l = 0 → memPut m a (encSyms 0 l) = m := by
      intro m a l hl
      funext i
      exact memPut_frame _ _ _ _ (by rw [encSyms_length]; omega)
    have f1 : InFront (poolHeader + symsLen (D.syms true) + symsLen (D.syms false)) (.bytes (poolHeader : Nat) (encSyms 0 (D.syms true))) := ⟨_, _, rfl, by omega⟩
    have f2 : InFront (poolHeader + symsLen (D.syms true) + symsLen (D.syms false)) (.bytes (poolHeader + symsLen (D.syms true) : Nat) (encSyms 0 (D.syms false))) := ⟨_, _, rfl, by omega⟩
    unfold Pool.moveStores
    rw [r1, Out.ok_bind, r2, Out.ok_bind]
    refine ⟨_, rfl, ?_, ?_⟩
    · intro s hs
      rcases List.mem_append.1 hs with hs | hs
      · split at hs
        · cases hs
        · rw [List.mem_singleton.1 hs]; exact f1
      · split at hs
        · cases hs
        · rw [List.mem_singleton.1 hs]; exact f2
    · have g1 : Pool.stores { P with root := 0 } (if P.tags.names = poolHeader ∨ symsLen (D.syms true) = 0 then [] else [.bytes (poolHeader : Nat) (encSyms 0 (D.syms true))]) = .ok { P with root := 0, mem := m1 } := by
        split
        · next hc =>
          have : symsLen (D.syms true) = 0 := by omega
          rw [← hm1, z _ _ _ this]; rfl
        · show (Pool.wr _ _ _ >>= fun S => S.stores []) = _
          rw [w1]; rfl
      have g2 : Pool.stores { P with root := 0, mem := m1 } (if P.params.names = poolHeader + symsLen (D.syms true) ∨ symsLen (D.syms false) = 0 then [] else [.bytes (poolHeader + symsLen (D.syms true) : Nat) (encSyms 0 (D.syms false))]) = .ok { P with root := 0, mem := m2 } := by
        split
        · next hc =>
          have : symsLen (D.syms false) = 0 := by omega
          rw [← hm2, z _ _ _ this]; rfl
        · show (Pool.wr _ _ _ >>= fun S => S.stores []) = _
          rw [w2]; rfl
      rw [stores_append]
      exact (congrArg (· >>= fun S => Pool.stores S _) g1).trans g2
  -- the tables
  generalize hN : poolHeader + symsLen (D.syms true) + symsLen (D.syms false) = N at *
  have hE : Pool.emptyStores { P with root := 0 } (symsLen (D.syms true)) (symsLen (D.syms false)) = [.tab true { P.tags with names := poolHeader }, .tab true { P.tags with names := poolHeader, index := 0 },
      .tab false { P.params with names := poolHeader + symsLen (D.syms true) }, .tab false { P.params with names := poolHeader + symsLen (D.syms true), index := 0 }] ++ [.alloc N, .bytes (N : Nat) (List.replicate (P.alloc - N) 0)] := by
    unfold Pool.emptyStores
    simp only [hN]; rfl
  have hEM : Pool.emptyStores (P.movedTo D) (symsLen (D.syms true)) (symsLen (D.syms false)) = [.tab true (P.movedTo D).tags, .tab true (P.movedTo D).tags, .tab false (P.movedTo D).params, .tab false (P.movedTo D).params] ++
      [.alloc N, .bytes (N : Nat) (List.replicate (P.alloc - N) 0)] := by
    unfold Pool.emptyStores
    simp only [hN]
    rfl
  have hself : ({ P.movedTo D with root := 0 } : Pool) = P.movedTo D := rfl
  rw [hself] at a1 a5
  have hno : (P.movedTo D).stores [.tab true (P.movedTo D).tags, .tab true (P.movedTo D).tags, .tab false (P.movedTo D).params, .tab false (P.movedTo D).params] = .ok (P.movedTo D) := rfl
  have htab : Pool.stores { P with root := 0, mem := m2 } [.tab true { P.tags with names := poolHeader }, .tab true { P.tags with names := poolHeader, index := 0 },
      .tab false { P.params with names := poolHeader + symsLen (D.syms true) }, .tab false { P.params with names := poolHeader + symsLen (D.syms true), index := 0 }] = .ok (P.movedTo D) := by
    rw [hMd]; rfl
  have a1' : (P.movedTo D).stores [.alloc N, .bytes (N : Nat) (List.replicate (P.alloc - N) 0)] = .ok A := by
    rw [hEM, stores_append, hno, Out.ok_bind] at a1
    exact a1
  have hall : Pool.stores { P with root := 0, mem := m2 } (Pool.emptyStores { P with root := 0 } (symsLen (D.syms true)) (symsLen (D.syms false))) = .ok A := by
    rw [hE, stores_append, htab, Out.ok_bind, a1']
  have hall2 : Pool.stores { P with root := 0 } (ms ++ Pool.emptyStores { P with root := 0 } (symsLen (D.syms true)) (symsLen (D.syms false))) = .ok A := by
    rw [stores_append, hmst, Out.ok_bind, hall]
  refine ⟨Q, (ms ++ Pool.emptyStores { P with root := 0 } (symsLen (D.syms true)) (symsLen (D.syms false))) ++ (ts ++ ps), ?_, ?_, ?_, ?_⟩
  · have cp1 : Pool.copy { P with root := 0 } poolHeader P.tags.names (symsLen (D.syms true)) = .ok { P with root := 0, mem := m1 } := by
      unfold Pool.copy
      rw [r1, Out.ok_bind]
      exact w1
    have r2' : (Pool.img { P with root := 0, mem := m1 }).rd P.params.names (symsLen (D.syms false)) = .ok (encSyms 0 (D.syms false)) :=
      rd_eq (f := Pool.img { P with root := 0, mem := m1 }) (a := P.params.names) (p4.congr fun i i1 _ => hfr i (by omega)) lp (by show _ ≤ P.fileSize; omega)
    have cp2 : Pool.copy { P with root := 0, mem := m1 } (poolHeader + symsLen (D.syms true)) P.params.names (symsLen (D.syms false)) = .ok { P with root := 0, mem := m2 } := by
      unfold Pool.copy
      rw [r2', Out.ok_bind]
      exact w2
    have mv1 : Pool.clearMove { P with root := 0 } poolHeader P.tags.names (symsLen (D.syms true)) P.params.names (symsLen (D.syms false)) = .ok ({ P with root := 0, mem := m1 }, true) := by
      unfold Pool.clearMove
      split
      · next hc =>
        have : memPut P.mem poolHeader (encSyms 0 (D.syms true)) = P.mem := by funext i; exact memPut_frame _ _ _ _ (by omega)
        rw [← hm1, this]; rfl
      · rw [if_pos (Or.inr (by omega)), cp1]; rfl
    have mv2 : Pool.clearMove { P with root := 0, mem := m1 } (poolHeader + symsLen (D.syms true)) P.params.names (symsLen (D.syms false)) P.tags.names (symsLen (D.syms true)) = .ok ({ P with root := 0, mem := m2 }, true) := by
      unfold Pool.clearMove
      split
      · next hc =>
        have : memPut m1 (poolHeader + symsLen (D.syms true)) (encSyms 0 (D.syms false)) = m1 := by funext i; exact memPut_frame _ _ _ _ (by omega)
        rw [← hm2, this]; rfl
      · rw [if_pos (Or.inr (by omega)), cp2]; rfl
    unfold Pool.clear
    simp only
    rw [e1, Out.ok_bind]
    simp only
    rw [e2, Out.ok_bind]
    simp only
    unfold Pool.clearSave
    rw [if_neg (by simp only; omega), Out.pure_eq, Out.ok_bind]
    simp only
    rw [mv1, Out.ok_bind]
    simp only
    rw [if_neg (by simp), mv2, Out.ok_bind]
    simp only
    rw [if_neg (by simp)]
    unfold Pool.clearEnd
    simp only [hN]
    rw [Pool.wr_eq (a := N) (by rw [List.length_replicate]; show _ ≤ P.fileSize; omega) _ rfl, Out.ok_bind]
    simp only
    rw [a3] at a2
    have a2' : A = { P with root := 0, tags := { P.tags with names := poolHeader, index := 0 }, params := { P.params with names := poolHeader + symsLen (D.syms true), index := 0 }, alloc := N, mem := memPut m2 N (List.replicate (P.alloc - N) 0) } := by
      rw [a2, hMd]
    rw [← a2', b1, Out.ok_bind, if_neg (by simp)]
    exact c1
  · unfold Pool.clearStores
    show (Pool.namesSize _ P.tags >>= _) = _
    rw [e1, Out.ok_bind]
    show (Pool.namesSize _ P.params >>= _) = _
    rw [e2, Out.ok_bind]
    simp only
    rw [hms, Out.ok_bind, hall2, Out.ok_bind, b2, Out.ok_bind, b3, Out.ok_bind, c2]
    rfl
  · rw [stores_append, hall2, Out.ok_bind, stores_append, b3, Out.ok_bind, c3]
  · intro C hk
    rcases killed_append hk with hk | ⟨A', ha, hk⟩
    · rcases killed_append hk with hk | ⟨A', ha, hk⟩
      · obtain ⟨m, rfl, hm⟩ := killed_front hmf hk
        exact Or.inl ⟨_, moving_keeps k h (fun i hi => hm i (by omega))⟩
      rw [hmst] at ha
      cases ha
      rw [hE] at hk
      rcases killed_append hk with hk | ⟨A', ha, hk⟩
      · have st0 := moving_keeps k h (m := m2) (fun i hi => hfr2 i (by omega))
        rcases killed_cons (by simp) rfl hk with rfl | hk
        · exact Or.inl ⟨_, st0⟩
        have hh : Has m2 poolHeader (encSyms 0 (D.syms true)) := by
          rw [← hm2]
          refine Has.congr (m := m1) (by rw [← hm1]; exact Has.self _ _ _) fun i i1 i2 => memPut_frame _ _ _ _ (Or.inl ?_)
          rw [encSyms_length] at i2
          exact i2
        have st2 := half_keeps k h (m := m2) (fun i hi => hfr2 i (by omega)) hh
        rcases killed_cons (by simp) rfl hk with hC | hk
        · by_cases hx : P.tags.index = 0
          · left
            have : ({ P.tags with names := poolHeader } : Tab16) = { P.tags with names := poolHeader, index := 0 } := by
              rw [← hx]
            refine ⟨fun b => !b && D.ready b, ?_⟩
            rw [hC, this]
            exact st2
          · by_cases hy : P.tags.names = poolHeader
            · left
              have : ({ P.tags with names := poolHeader } : Tab16) = P.tags := by rw [← hy]
              refine ⟨D.ready, ?_⟩
              rw [hC, this]
              exact st0
            · right
              refine ⟨true, ?_, ?_, hx⟩
              · rw [hC]; exact fun e => hy e.symm
              · rw [hC]; rfl
        rcases killed_cons (by simp) rfl hk with hC | hk
        · left
          refine ⟨fun b => !b && D.ready b, ?_⟩
          rw [hC]
          exact st2
        rcases killed_cons (by simp) rfl hk with hC | hk
        · by_cases hx : P.params.index = 0
          · left
            have : ({ P.params with names := poolHeader + symsLen (D.syms true) } : Tab16) = { P.params with names := poolHeader + symsLen (D.syms true), index := 0 } := by
              rw [← hx]
            refine ⟨fun _ => false, ?_⟩
            rw [hC, this]
            rw [hMd] at kM
            exact kM
          · by_cases hy : P.params.names = poolHeader + symsLen (D.syms true)
            · left
              have : ({ P.params with names := poolHeader + symsLen (D.syms true) } : Tab16) = P.params := by rw [← hy]
              refine ⟨fun b => !b && D.ready b, ?_⟩
              rw [hC, this]
              exact st2
            · right
              refine ⟨false, ?_, ?_, hx⟩
              · rw [hC]; exact fun e => hy e.symm
              · rw [hC]; rfl
        · left
          refine ⟨_, (?_ : C = P.movedTo D) ▸ kM⟩
          obtain ⟨done, rest, he, h⟩ := hk
          obtain ⟨rfl, rfl⟩ := List.append_eq_nil_iff.1 he.symm
          rcases h with h | ⟨a, bs, r, Q, m, e, -⟩
          · cases h; rw [hMd]; rfl
          · cases e
      · rw [htab] at ha
        cases ha
        exact Or.inl (a5 C (by rw [hEM]; exact killed_behind hno hk))
    rw [hall2] at ha
    cases ha
    rcases killed_append hk with hk | ⟨B', hb, hk⟩
    · exact Or.inl (b8 C hk)
    rw [b3] at hb
    cases hb
    exact Or.inl (c8 C hk)

/-- the stores of clearing a document whose names and indexes are behind the places where `Clear` puts the names, are what `Clear` does: `root` first, then these -/
theorem C69_move_stores {E : Env} {maxSize : Nat} (h1 : 0x4000 ≤ maxSize) (h2 : maxSize < 2147483648) {P Q : Pool} {D : Doc} (h : Sess E maxSize P D)
    (hn : ∀ b, poolHeader + symsLen (D.syms true) + symsLen (D.syms false) ≤ (P.tab b).names)
    (hi : ∀ b, (P.tab b).index = 0 ∨ poolHeader + symsLen (D.syms true) + symsLen (D.syms false) ≤ (P.tab b).index)
    (hroom : poolHeader + symsLen (D.syms true) + symsLen (D.syms false) + 4 * (D.syms true).length + 4 * (D.syms false).length ≤ P.limit) :
    P.clear = .ok (Q, true) ↔ ∃ ss, Pool.clearStores { P with root := 0 } = .ok ss ∧ Pool.stores { P with root := 0 } ss = .ok Q := by
  obtain ⟨⟨els, V, fl, k⟩, -⟩ := sess_both h1 h2 h
  obtain ⟨R, ss, r1, r2, r3, -⟩ := move_stores k ⟨hn, hi⟩ hroom
  rw [r1, r2]
  constructor
  · intro e; cases e; exact ⟨_, rfl, r3⟩
  · rintro ⟨ss', e1, e2⟩
    cases e1
    rw [r3] at e2; cases e2; rfl

/-- killed in `Clear` where all names are moved to places that no name and no index uses, at any point but those where a table has its new names and still its old index: the file opens and
shows the document before the call, or no element and the symbols, some of whose indexes may be missing; `allRegistered` makes these, and then it is the document after the call -/
theorem C69_move_partial {E : Env} {maxSize : Nat} (h1 : 0x4000 ≤ maxSize) (h2 : maxSize < 2147483648) {P C : Pool} {D : Doc} (h : Sess E maxSize P D)
    (hn : ∀ b, poolHeader + symsLen (D.syms true) + symsLen (D.syms false) ≤ (P.tab b).names)
    (hi : ∀ b, (P.tab b).index = 0 ∨ poolHeader + symsLen (D.syms true) + symsLen (D.syms false) ≤ (P.tab b).index)
    (hroom : poolHeader + symsLen (D.syms true) + symsLen (D.syms false) + 4 * (D.syms true).length + 4 * (D.syms false).length ≤ P.limit)
    {ss : List Store} (hs : Pool.clearStores { P with root := 0 } = .ok ss) (hk : C = P ∨ Pool.KilledIn { P with root := 0 } ss C)
    (hc : ∀ b, (P.tab b).index = 0 ∨ (C.tab b).names = (P.tab b).names ∨ (C.tab b).index ≠ (P.tab b).index) :
    OpensAs E C.file [D] ∨ ((∃ r, OpensAs E C.file [{ D.cleared with ready := r }]) ∧
      ∀ n g, openFile E false n C.file = .ok (some g) → g.pool.root = 0 ∧ ∀ R, g.pool.allRegistered E = .ok (R, true) → Shows R D.cleared) := by
  obtain ⟨⟨els, V, fl, k⟩, low⟩ := sess_both h1 h2 h
  rcases hk with rfl | hk
  · exact Or.inl (k.holds.opensAs k.sees low (k.lists.ahead (fun _ _ _ _ => rfl) fun _ _ _ _ => rfl) (by simp))
  · right
    obtain ⟨R, ss', r1, r2, r3, r4⟩ := move_stores k ⟨hn, hi⟩ hroom
    rw [hs] at r2
    cases r2
    rcases r4 C hk with ⟨r, kc⟩ | ⟨b, x1, x2, x3⟩
    · have low' : (0 : Nat) < 2147483648 := by decide
      refine ⟨⟨r, kc.holds.opensAs kc.sees low' (kc.lists.ahead (fun _ _ _ _ => rfl) fun _ _ _ _ => rfl) (by simp)⟩, fun n g hg => ?_⟩
      obtain ⟨o1, o2⟩ := kc.opened low' E n
      rw [hg] at o1
      cases o1
      refine ⟨o2.root, fun R hR => ?_⟩
      have ka := o2.all hR
      have e : (fun b => r b || true) = fun _ => true := by funext b; simp
      simp only [e] at ka
      exact ka.holds.shows ka.sees (ka.lists.ahead (fun _ _ _ _ => rfl) fun _ _ _ _ => rfl)
    · rcases hc b with c | c | c
      · exact absurd c x3
      · exact absurd c x1
      · exact absurd x2 c

/-- another tag, another attribute, and the indexes: all names and indexes are behind the element -/
def mov1 : Pool := poolOfReg (clr4.register true (b8 "car") NULL)
def mov2 : Pool := poolOfReg (mov1.register false (b8 "no") INT32)
def mov3 : Pool := poolOfB (mov2.allRegistered demoEnv)

theorem mov_sess : ∃ D, Sess demoEnv 0x8000 mov3 D ∧ D.syms true = [⟨b8 "person", NULL⟩, ⟨b8 "car", NULL⟩] ∧ D.syms false = [⟨b8 "id", INT32⟩, ⟨b8 "no", INT32⟩] ∧ D.forest.Elem 112 := by
  obtain ⟨D, d1, d2, d3, d4, d5⟩ := clr_sess4
  have r1 : clr4.register true (b8 "car") NULL = .ok (mov1, 1) := poolOfReg_eq (by decide +kernel)
  have r2 : mov1.register false (b8 "no") INT32 = .ok (mov2, 1) := poolOfReg_eq (by decide +kernel)
  have r3 : mov2.allRegistered demoEnv = .ok (mov3, true) := poolOfB_eq (by decide +kernel)
  have s1 := Sess.registered d1 (by decide) (by decide) (Or.inl (by rw [d2]; decide)) r1 (by decide)
  have e2 : ∀ (D : Doc) l r, (D.setSyms true l r).syms false = D.syms false := fun _ _ _ => rfl
  have s2 := Sess.registered s1 (by decide) (by decide) (Or.inl (by rw [e2, d3]; decide)) r2 (by decide)
  have s3 := Sess.allRegistered s2 r3
  refine ⟨_, s3, ?_, ?_, d5⟩
  · have : registered (D.syms true) (b8 "car") NULL = [⟨b8 "person", NULL⟩, ⟨b8 "car", NULL⟩] := by rw [d2]; decide +kernel
    exact this
  · have : registered (D.syms false) (b8 "no") INT32 = [⟨b8 "id", INT32⟩, ⟨b8 "no", INT32⟩] := by rw [d3]; decide +kernel
    exact this

theorem mov_torn : (match Pool.clearStores { mov3 with root := 0 } with
    | .ok ss => (match Pool.stores { mov3 with root := 0 } ss, Pool.stores { mov3 with root := 0 } (ss.take 1) with
      | .ok Q, .ok C => C.tags == mov3.tags && C.params == mov3.params && slice C.mem 92 20 != slice mov3.mem 92 20 && slice C.mem 112 16 != slice Q.mem 112 16 | _, _ => false)
    | _ => false) = true := by decide +kernel

/-- the hypotheses of `C69_move_stores` and `C69_move_partial` are met: the names are moved, the process is killed between the tags and the attributes, when the element has been overwritten in part -/
example : ∃ D Q ss C, Sess demoEnv 0x8000 mov3 D ∧ D.forest.Elem 112 ∧ mov3.clear = .ok (Q, true) ∧ Pool.clearStores { mov3 with root := 0 } = .ok ss ∧ Pool.stores { mov3 with root := 0 } ss = .ok Q ∧
    Pool.KilledIn { mov3 with root := 0 } ss C ∧ slice C.mem 92 20 ≠ slice mov3.mem 92 20 ∧ slice C.mem 112 16 ≠ slice Q.mem 112 16 ∧
    (OpensAs demoEnv C.file [D] ∨ ∃ r, OpensAs demoEnv C.file [{ D.cleared with ready := r }]) := by
  obtain ⟨D, h, h1, h2, h4⟩ := mov_sess
  have e1 : ∀ b, poolHeader + symsLen (D.syms true) + symsLen (D.syms false) ≤ (mov3.tab b).names := by rw [h1, h2]; decide +kernel
  have e2 : ∀ b, (mov3.tab b).index = 0 ∨ poolHeader + symsLen (D.syms true) + symsLen (D.syms false) ≤ (mov3.tab b).index := by rw [h1, h2]; decide +kernel
  have e3 : poolHeader + symsLen (D.syms true) + symsLen (D.syms false) + 4 * (D.syms true).length + 4 * (D.syms false).length ≤ mov3.limit := by rw [h1, h2]; decide +kernel
  have f := mov_torn
  generalize mov3 = P at *
  match hs : Pool.clearStores { P with root := 0 } with
  | .ok ss =>
    rw [hs] at f
    simp only at f
    match hq : Pool.stores { P with root := 0 } ss, hc : Pool.stores { P with root := 0 } (ss.take 1) with
    | .ok Q, .ok C =>
      rw [hq, hc] at f
      simp at f
      have hk : Pool.KilledIn { P with root := 0 } ss C := ⟨_, _, (List.take_append_drop 1 _).symm, Or.inl hc⟩
      have ht : ∀ b, C.tab b = P.tab b := fun b => by cases b; exact f.1.1.2; exact f.1.1.1
      exact ⟨D, Q, ss, C, h, h4, (C69_move_stores (by decide) (by decide) h e1 e2 e3).2 ⟨_, hs, hq⟩, rfl, hq, hk, f.1.2, f.2,
        (C69_move_partial (by decide) (by decide) h e1 e2 e3 hs (Or.inr hk) fun b => Or.inr (Or.inl (by rw [ht]))).imp id And.left⟩
    | .ok Q, .fail => rw [hq, hc] at f; simp at f
    | .ok Q, .ub => rw [hq, hc] at f; simp at f
    | .fail, x => rw [hq] at f; simp at f
    | .ub, x => rw [hq] at f; simp at f
  | .fail => rw [hs] at f; simp at f
  | .ub => rw [hs] at f; simp at f

end BX
