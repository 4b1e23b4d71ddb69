import Verif.Lemmas.CrashMake
import Verif.Lemmas.DictOk
/-
The stores of making an index of symbols.
-/
namespace BX
open XBT Spec

/-- killed while the last store is one that is done or not: before it, or behind it -/
theorem killed_snoc {P C : Pool} {ss : List Store} {s : Store} (hs : ∀ a bs, s ≠ .bytes a bs) (h : P.KilledIn (ss ++ [s]) C) : P.KilledIn ss C ∨ P.stores (ss ++ [s]) = .ok C := by
  obtain ⟨done, rest, he, h⟩ := h
  rcases List.eq_nil_or_concat rest with rfl | ⟨r, x, rfl⟩
  · rw [List.append_nil] at he
    subst he
    rcases h with h | ⟨a, bs, rest', Q, m, e, -⟩
    · exact Or.inr h
    · cases e
  · rw [List.concat_eq_append, ← List.append_assoc] at he
    obtain ⟨h1, h2⟩ := List.append_inj' he rfl
    refine Or.inl ⟨done, r, h1, ?_⟩
    rcases h with h | ⟨a, bs, rest', Q, m, e, h3⟩
    · exact Or.inl h
    · cases r with
      | nil =>
        simp only [List.concat_eq_append, List.nil_append, List.cons.injEq] at e h2
        exact absurd (h2.1.trans e.1) (hs _ _)
      | cons y r =>
        simp only [List.concat_eq_append, List.cons_append, List.cons.injEq] at e
        exact Or.inr ⟨a, bs, r, Q, m, by rw [e.1], h3⟩

theorem indexLoop_stores {maxId : Int} {ix stop : Nat} : ∀ (n : Nat) {P Q : Pool} {start : Nat}, Pool.indexLoop maxId ix stop n P start = .ok (Q, true) →
    ∃ ws, Pool.indexStores maxId ix stop n P start = .ok ws ∧ P.stores ws = .ok Q ∧ ∀ s ∈ ws, ∃ a v, s = .word a v ∧ (ix : Int) ≤ a
  | 0, P, Q, start, h => by
    cases h
    exact ⟨[], rfl, rfl, by simp⟩
  | n+1, P, Q, start, h => by
    unfold Pool.indexLoop at h
    unfold Pool.indexStores
    by_cases hs : stop ≤ start
    · rw [if_pos hs] at h; cases h
    · rw [if_neg hs] at h ⊢
      obtain ⟨id, h1, h⟩ := Out.bind_eq_ok h
      rw [h1, Out.ok_bind]
      by_cases hid : id < 0 ∨ maxId < id
      · rw [if_pos hid] at h; cases h
      · rw [if_neg hid] at h ⊢
        obtain ⟨R, h2, h⟩ := Out.bind_eq_ok h
        obtain ⟨s, h3, h⟩ := Out.bind_eq_ok h
        obtain ⟨ws, w1, w2, w3⟩ := indexLoop_stores n h
        have hst : P.store1 (.word (ix + 4 * id) start) = .ok R := h2
        rw [hst, Out.ok_bind, h3, Out.ok_bind, w1]
        refine ⟨_, rfl, ?_, ?_⟩
        · show (P.store1 (.word (ix + 4 * id) start) >>= fun S => S.stores ws) = _
          rw [hst]; exact w2
        · intro x hx
          rcases List.mem_cons.1 hx with rfl | hx
          · exact ⟨_, _, rfl, by omega⟩
          · exact w3 x hx

theorem indexStores_tab {P Q : Pool} {ws : List Store} (hw : ∀ s ∈ ws, ∃ a v, s = .word a v) (h : P.stores ws = .ok Q) (b : Bool) : Q.tab b = P.tab b := by
  induction ws generalizing P with
  | nil => cases h; rfl
  | cons s ws ih =>
    obtain ⟨R, h1, h2⟩ := Out.bind_eq_ok (show (P.store1 s >>= fun S => S.stores ws) = .ok Q from h)
    obtain ⟨a, v, rfl⟩ := hw s (by simp)
    obtain ⟨_, _, _, rfl⟩ := Pool.wr_ok (show P.wr a _ = _ from h1)
    have := ih (fun x hx => hw x (List.mem_cons_of_mem _ hx)) h2
    cases b <;> exact this

/-- making an index is its stores: some in memory that was free, and that of the place of the index -/
theorem table_stores {P : Pool} (hP : PoolOk P) (hsm : P.mmapSize < 2147483648) {b : Bool} {l : List Sym} (h : TabOk P (P.tab b) l) (hi : (P.tab b).index = 0) (hl : l ≠ [])
    (hroom : P.alloc + 4 * l.length ≤ P.limit) : ∃ Q ss T, P.makeTable b = .ok (Q, true) ∧ P.tableStores b = .ok (ss ++ [.tab b T]) ∧ P.stores (ss ++ [.tab b T]) = .ok Q ∧ ∀ s ∈ ss, InFree P s := by
  obtain ⟨Q, hQ, -⟩ := makeTable_ok hP hsm h hroom
  have hQ' := hQ
  unfold Pool.makeTable at hQ
  have hself : P.setTab b { P.tab b with index := 0 } = P := by
    have : ({ P.tab b with index := 0 } : Tab16) = P.tab b := by
      cases hT : P.tab b; rw [hT] at hi; simp only at hi; rw [hi]
    rw [this, setTab_self]
  simp only [hself] at hQ
  have hmx := h.max
  have hpos := List.length_pos_iff.2 hl
  have hfew := h.few
  rw [if_neg (by omega), if_neg (h.some hl)] at hQ
  have haa : aa (4 * l.length) = 4 * l.length := aa_of_mod (by omega)
  have hn : (4 * ((P.tab b).maxId + 1)).toNat = 4 * l.length := by omega
  have hsz := hP.map
  have hlim := hP.lim
  have hall := allocRoom_eq (P := P) hP hsm (size := 4 * l.length) (by omega) (by omega) (4 * ((P.tab b).maxId + 1)) (by omega)
  have hx : xalign NULL ≠ 8 := by decide
  have hst : P.stores (P.allocStores NULL (4 * l.length)).1 = .ok { P with mem := memPut P.mem P.alloc (List.replicate (aa (4 * l.length)) 0), alloc := P.alloc + aa (4 * l.length) } := by
    unfold Pool.allocStores
    rw [if_neg hx]
    show (Pool.wr { P with alloc := P.alloc + aa (4 * l.length) } (P.alloc : Nat) (List.replicate (aa (4 * l.length)) 0) >>= fun S => S.stores []) = _
    rw [Pool.wr_eq (a := P.alloc) (by simp only [List.length_replicate]; have := hP.lim; omega) _ rfl]
    rfl
  have hix : (P.allocStores NULL (4 * l.length)).2 = P.alloc := by
    unfold Pool.allocStores; rw [if_neg hx]
  have hfr := allocStores_fresh hP (t := NULL) (size := 4 * l.length) (by unfold Pool.Room; rw [if_neg hx, haa]; exact hroom)
  obtain ⟨u1, u2, -, -⟩ := allocate_step hP b hall
  unfold Pool.tableStores
  rw [hall, Out.ok_bind] at hQ
  simp only at hQ
  simp only [hn]
  rw [hst, Out.ok_bind, hix]
  generalize ({ P with mem := memPut P.mem P.alloc (List.replicate (aa (4 * l.length)) 0), alloc := P.alloc + aa (4 * l.length) } : Pool) = S at *
  have t1 : TabOk S (S.tab b) l := by
    rw [u2]
    exact h.frame u1.mono fun i hi => u1.keep i (h.lt hi).2
  rw [namesSize_ok u1.ok t1, Out.ok_bind] at hQ ⊢
  simp only [setTab_self] at hQ
  obtain ⟨u, q1, hQ⟩ := Out.bind_eq_ok hQ
  obtain ⟨R, ok⟩ := u
  cases ok with
  | false => simp only [Bool.false_eq_true, if_false] at hQ; cases hQ
  | true =>
    rw [if_pos rfl] at hQ
    obtain ⟨ws, w1, w2, w3⟩ := indexLoop_stores _ q1
    have ht := indexStores_tab (fun s hs => by obtain ⟨a, v, e, -⟩ := w3 s hs; exact ⟨a, v, e⟩) w2 b
    simp only [w1, Out.ok_bind]
    refine ⟨Q, (P.allocStores NULL (4 * l.length)).1 ++ ws, { S.tab b with index := P.alloc }, hQ', rfl, ?_, ?_⟩
    · rw [stores_append, stores_append, hst, Out.ok_bind, w2, Out.ok_bind]
      simp only at hQ
      rw [ht] at hQ
      cases hQ
      rfl
    · intro s hs
      rcases List.mem_append.1 hs with hs | hs
      · exact hfr.1 s hs
      · obtain ⟨a, v, rfl, ha⟩ := w3 s hs
        exact ha

end BX
