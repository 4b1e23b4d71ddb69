import Verif.Lemmas.CrashClear
import Verif.Props.Crash
/-
C69: the process is killed while it clears a document.
-/
namespace BX
open XBT Spec

theorem has_own (m : Mem) (a n : Nat) : Has m a (slice m a n) := by simp [Has, slice]

/-- what `Clear` does with names that stay where they are, store by store -/
theorem clear_stores {P : Pool} {D : Doc} {els V fl} (k : Keeps P D els V fl) (hp : InPlace P D)
    (hroom : poolHeader + symsLen (D.syms true) + symsLen (D.syms false) + 4 * (D.syms true).length + 4 * (D.syms false).length ≤ P.limit) :
    ∃ Q ss, P.clear = .ok (Q, true) ∧ Pool.clearStores { P with root := 0 } = .ok ss ∧ Pool.stores { P with root := 0 } ss = .ok Q ∧
      ∀ C, Pool.KilledIn { P with root := 0 } ss C → ∃ r, Keeps C { D.cleared with ready := r } [] (fun _ _ => 0) (fun _ => 0) := by
  have hle := hp.le k
  obtain ⟨A, a1, a2, a3, a4, a5⟩ := empty_part k hp
  have hAt : A.tab true = { P.tags with names := poolHeader, index := 0 } := by rw [a2]; rfl
  have hAp : A.tab false = { P.params with names := poolHeader + symsLen (D.syms true), index := 0 } := by rw [a2]; rfl
  have hAa : A.alloc = poolHeader + symsLen (D.syms true) + symsLen (D.syms false) := by rw [a2]
  have hAl : A.limit = P.limit := by rw [a2]
  obtain ⟨B, ts, b1, b2, b3, b4, b5, b6, b7, b8⟩ := table_part a4 (b := true) (by rw [hAt]) (by rw [hAa, hAl]; show _ + 4 * (D.syms true).length ≤ _; omega)
  obtain ⟨Q, ps, c1, c2, c3, c4, c5, c6, c7, c8⟩ := table_part b7 (b := false) (by rw [b6 false (by decide), hAp]) (by rw [b5, b4, hAa, hAl]; show _ + 4 * (D.syms true).length + 4 * (D.syms false).length ≤ _; omega)
  have hP := k.sees.ok
  have hP0 : PoolOk { P with root := 0 } := ⟨hP.head, hP.al, hP.le, hP.lim, hP.map, hP.page⟩
  have kt : TabOk { P with root := 0 } P.tags (D.syms true) := (k.tabs true).frame (Nat.le_refl _) fun _ _ => rfl
  have kp : TabOk { P with root := 0 } P.params (D.syms false) := (k.tabs false).frame (Nat.le_refl _) fun _ _ => rfl
  have e1 := namesSize_ok hP0 kt
  have e2 := namesSize_ok hP0 kp
  refine ⟨Q, Pool.emptyStores { P with root := 0 } (symsLen (D.syms true)) (symsLen (D.syms false)) ++ (ts ++ ps), ?_, ?_, ?_, ?_⟩
  · obtain ⟨h1, h2⟩ := hp
    have hpa : P.params.names ≤ P.alloc := by
      by_cases hn : P.params.names = 0
      · omega
      · have := (kp.names hn).2.2.1
        replace this : _ ≤ P.alloc := this
        omega
    have hlim := hP.lim
    have hal := hP.le
    unfold Pool.clear
    simp only
    rw [e1, Out.ok_bind]
    simp only
    rw [e2, Out.ok_bind]
    simp only
    unfold Pool.clearSave
    rw [if_neg (by simp only; omega), Out.pure_eq, Out.ok_bind]
    simp only
    unfold Pool.clearMove
    rw [if_pos h1, Out.pure_eq, Out.ok_bind]
    simp only
    rw [if_neg (by simp)]
    have hmove : (if P.params.names = poolHeader + symsLen (D.syms true) then (pure ({ P with root := 0 }, true) : Out (Pool × Bool)) else if poolHeader + symsLen (D.syms true) ≥ P.tags.names + symsLen (D.syms true) ∨ poolHeader + symsLen (D.syms true) + symsLen (D.syms false) ≤ P.tags.names then (do
        let P ← Pool.copy { P with root := 0 } (poolHeader + symsLen (D.syms true)) P.params.names (symsLen (D.syms false))
        pure (P, true)) else pure ({ P with root := 0 }, false)) = .ok ({ P with root := 0 }, true) := by
      by_cases hc : P.params.names = poolHeader + symsLen (D.syms true)
      · rw [if_pos hc]; rfl
      · have hl : D.syms false = [] := h2.resolve_left hc
        rw [hl] at hle ⊢
        simp only [symsLen] at hle
        rw [if_neg hc, if_pos (Or.inl (by omega))]
        unfold Pool.copy
        rw [rd_eq (f := Pool.img { P with root := 0 }) (a := P.params.names) (n := symsLen []) (bs := []) rfl rfl (by simp only [symsLen]; show _ ≤ P.fileSize; omega), Out.ok_bind, Pool.wr_eq (a := poolHeader + symsLen (D.syms true)) (by simp; omega) _ rfl, Out.ok_bind]
        have : memPut P.mem (poolHeader + symsLen (D.syms true)) [] = P.mem := by funext i; exact memPut_frame _ _ _ _ (by simp only [List.length_nil]; omega)
        show Out.ok (({ P with root := 0, mem := memPut P.mem (poolHeader + symsLen (D.syms true)) [] } : Pool), true) = _
        rw [this]
    rw [hmove, Out.ok_bind]
    simp only
    rw [if_neg (by simp)]
    unfold Pool.clearEnd
    simp only
    rw [Pool.wr_eq (a := poolHeader + symsLen (D.syms true) + symsLen (D.syms false)) (by rw [List.length_replicate]; show _ ≤ P.fileSize; omega) _ rfl, Out.ok_bind]
    simp only
    rw [a3] at a2
    rw [← a2, b1, Out.ok_bind, if_neg (by simp)]
    exact c1
  · unfold Pool.clearStores
    show (Pool.namesSize _ P.tags >>= _) = _
    rw [e1, Out.ok_bind]
    show (Pool.namesSize _ P.params >>= _) = _
    rw [e2, Out.ok_bind]
    simp only
    have hhd : poolHeader ≠ 0 := by decide
    have hal := hP.le
    have hlim := hP.lim
    have r1 : Pool.img { P with root := 0 } = P.img := rfl
    obtain ⟨h1, h2⟩ := hp
    have m : Pool.moveStores { P with root := 0 } (symsLen (D.syms true)) (symsLen (D.syms false)) = .ok [] := by
      unfold Pool.moveStores
      have n1 := (kt.names (by rw [h1]; exact hhd))
      rw [rd_eq (f := Pool.img { P with root := 0 }) (a := P.tags.names) (n := symsLen (D.syms true)) (bs := slice P.mem P.tags.names (symsLen (D.syms true))) (has_own _ _ _) (by simp [slice]) (by show _ ≤ P.fileSize; omega), Out.ok_bind]
      have n2 : P.params.names + symsLen (D.syms false) ≤ P.fileSize := by
        by_cases hn : P.params.names = 0
        · omega
        · have := (kp.names hn).2.2.1
          replace this : _ ≤ P.alloc := this
          omega
      rw [rd_eq (f := Pool.img { P with root := 0 }) (a := P.params.names) (n := symsLen (D.syms false)) (bs := slice P.mem P.params.names (symsLen (D.syms false))) (has_own _ _ _) (by simp [slice]) (by show _ ≤ P.fileSize; omega), Out.ok_bind]
      rw [if_pos (Or.inl h1), if_pos]
      · rfl
      · rcases h2 with h2 | h2
        · exact Or.inl h2
        · exact Or.inr (by rw [h2]; rfl)
    rw [m, Out.ok_bind, List.nil_append, a1, Out.ok_bind, b2, Out.ok_bind, b3, Out.ok_bind, c2]
    rfl
  · rw [stores_append, a1, Out.ok_bind, stores_append, b3, Out.ok_bind, c3]
  · intro C hk
    rcases killed_append hk with hk | ⟨A', ha, hk⟩
    · exact a5 C hk
    rw [a1] at ha
    cases ha
    rcases killed_append hk with hk | ⟨B', hb, hk⟩
    · exact b8 C hk
    rw [b3] at hb
    cases hb
    exact c8 C hk

/-- the stores of clearing a document whose names stay where they are, for whose indexes there is room, are what `Clear` does: `root` first, then these -/
theorem C69_clear_stores {E : Env} {maxSize : Nat} (h1 : 0x4000 ≤ maxSize) (h2 : maxSize < 2147483648) {P Q : Pool} {D : Doc} (h : Sess E maxSize P D) (ht : P.tags.names = poolHeader)
    (hp : P.params.names = poolHeader + symsLen (D.syms true) ∨ D.syms false = [])
    (hroom : poolHeader + symsLen (D.syms true) + symsLen (D.syms false) + 4 * (D.syms true).length + 4 * (D.syms false).length ≤ P.limit) :
    P.clear = .ok (Q, true) ↔ ∃ ss, Pool.clearStores { P with root := 0 } = .ok ss ∧ Pool.stores { P with root := 0 } ss = .ok Q := by
  obtain ⟨⟨els, V, fl, k⟩, -⟩ := sess_both h1 h2 h
  obtain ⟨R, ss, r1, r2, r3, -⟩ := clear_stores k ⟨ht, hp⟩ hroom
  rw [r1, r2]
  constructor
  · intro e; cases e; exact ⟨_, rfl, r3⟩
  · rintro ⟨ss, e1, e2⟩
    cases e1
    rw [r3] at e2; cases e2; rfl

/-- killed in `Clear` at any point, where the names stay where they are: the file opens and shows the document before the call, or no element and the symbols, some of whose indexes
may be missing; `allRegistered` makes these, and then it is the document after the call -/
theorem C69_clear_partial {E : Env} {maxSize : Nat} (h1 : 0x4000 ≤ maxSize) (h2 : maxSize < 2147483648) {P C : Pool} {D : Doc} (h : Sess E maxSize P D) (ht : P.tags.names = poolHeader)
    (hp : P.params.names = poolHeader + symsLen (D.syms true) ∨ D.syms false = [])
    (hroom : poolHeader + symsLen (D.syms true) + symsLen (D.syms false) + 4 * (D.syms true).length + 4 * (D.syms false).length ≤ P.limit)
    {ss : List Store} (hs : Pool.clearStores { P with root := 0 } = .ok ss) (hk : C = P ∨ Pool.KilledIn { P with root := 0 } ss C) :
    OpensAs E C.file [D] ∨ ((∃ r, OpensAs E C.file [{ D.cleared with ready := r }]) ∧
      ∀ n g, openFile E false n C.file = .ok (some g) → g.pool.root = 0 ∧ ∀ R, g.pool.allRegistered E = .ok (R, true) → Shows R D.cleared) := by
  obtain ⟨⟨els, V, fl, k⟩, low⟩ := sess_both h1 h2 h
  rcases hk with rfl | hk
  · exact Or.inl (k.holds.opensAs k.sees low (k.lists.ahead (fun _ _ _ _ => rfl) fun _ _ _ _ => rfl) (by simp))
  · right
    obtain ⟨R, ss', r1, r2, r3, r4⟩ := clear_stores k ⟨ht, hp⟩ hroom
    rw [hs] at r2
    cases r2
    obtain ⟨r, kc⟩ := r4 C hk
    have low' : (0 : Nat) < 2147483648 := by decide
    refine ⟨⟨r, kc.holds.opensAs kc.sees low' (kc.lists.ahead (fun _ _ _ _ => rfl) fun _ _ _ _ => rfl) (by simp)⟩, fun n g hg => ?_⟩
    obtain ⟨o1, o2⟩ := kc.opened low' E n
    rw [hg] at o1
    cases o1
    refine ⟨o2.root, fun R hR => ?_⟩
    have ka := o2.all hR
    have e : (fun b => r b || true) = fun _ => true := by funext b; simp
    simp only [e] at ka
    exact ka.holds.shows ka.sees (ka.lists.ahead (fun _ _ _ _ => rfl) fun _ _ _ _ => rfl)

end BX
