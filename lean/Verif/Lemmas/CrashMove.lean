import Verif.Lemmas.CrashClear
/-
The stores of clearing a document whose names are moved to the front.
-/
namespace BX
open XBT Spec

/-- bytes stored in front of `N` -/
def InFront (N : Nat) (s : Store) : Prop := ∃ (a : Nat) (bs : List UInt8), s = .bytes a bs ∧ a + bs.length ≤ N

theorem stores_front {N : Nat} : ∀ {ss : List Store} {P Q : Pool}, (∀ s ∈ ss, InFront N s) → P.stores ss = .ok Q → ∃ m, Q = { P with mem := m } ∧ ∀ i, N ≤ i → m i = P.mem i
  | [], P, Q, _, h => by cases h; exact ⟨P.mem, rfl, fun _ _ => rfl⟩
  | s :: ss, P, Q, hf, h => by
    obtain ⟨a, bs, rfl, hab⟩ := hf s (List.mem_cons_self ..)
    have h' : (P.wr (a : Nat) bs >>= fun S => S.stores ss) = .ok Q := h
    obtain ⟨S, h1, h2⟩ := Out.bind_eq_ok h'
    obtain ⟨a', ea, -, rfl⟩ := Pool.wr_ok h1
    obtain ⟨m, m1, m2⟩ := stores_front (fun s hs => hf s (List.mem_cons_of_mem _ hs)) h2
    exact ⟨m, m1, fun i hi => (m2 i hi).trans (memPut_frame _ _ _ _ (Or.inr (by omega)))⟩

theorem killed_front {N : Nat} {P C : Pool} {ss : List Store} (hf : ∀ s ∈ ss, InFront N s) (h : P.KilledIn ss C) : ∃ m, C = { P with mem := m } ∧ ∀ i, N ≤ i → m i = P.mem i := by
  obtain ⟨done, rest, rfl, h⟩ := h
  have hd : ∀ s ∈ done, InFront N s := fun s hs => hf s (List.mem_append_left _ hs)
  rcases h with h | ⟨a, bs, rest', Q, m, rfl, h, rfl, hm⟩
  · exact stores_front hd h
  · obtain ⟨m', rfl, e2⟩ := stores_front hd h
    obtain ⟨a', bs', e, hab⟩ := hf (.bytes a bs) (List.mem_append_right _ (List.mem_cons_self ..))
    injection e with ea eb
    subst eb
    refine ⟨m, rfl, fun i hi => ?_⟩
    rcases hm i with e | e
    · exact e.trans (e2 i hi)
    · omega

theorem killed_behind {P Q C : Pool} {xs ys : List Store} (h : P.stores xs = .ok Q) (hk : Q.KilledIn ys C) : P.KilledIn (xs ++ ys) C := by
  obtain ⟨done, rest, rfl, hk⟩ := hk
  refine ⟨xs ++ done, rest, by rw [List.append_assoc], ?_⟩
  rw [stores_append, h, Out.ok_bind]
  exact hk

/-- all names and indexes are behind the places where `Clear` puts the names -/
structure Away (P : Pool) (D : Doc) : Prop where
  names : ∀ b, poolHeader + symsLen (D.syms true) + symsLen (D.syms false) ≤ (P.tab b).names
  index : ∀ b, (P.tab b).index = 0 ∨ poolHeader + symsLen (D.syms true) + symsLen (D.syms false) ≤ (P.tab b).index

/-- the document after the names have been copied, with the tables that `Clear` stores -/
def Pool.movedTo (P : Pool) (D : Doc) : Pool :=
  { P with root := 0, tags := { P.tags with names := poolHeader, index := 0 }, params := { P.params with names := poolHeader + symsLen (D.syms true), index := 0 },
           mem := memPut (memPut P.mem poolHeader (encSyms 0 (D.syms true))) (poolHeader + symsLen (D.syms true)) (encSyms 0 (D.syms false)) }

theorem moved_keeps {P : Pool} {D : Doc} {els V fl} (k : Keeps P D els V fl) (h : Away P D) :
    Keeps (P.movedTo D) { D.cleared with ready := fun _ => false } [] (fun _ _ => 0) (fun _ => 0) ∧ InPlace (P.movedTo D) { D.cleared with ready := fun _ => false } := by
  have hP := k.sees.ok
  have kt : TabOk P P.tags (D.syms true) := k.tabs true
  have kp : TabOk P P.params (D.syms false) := k.tabs false
  have hhd : 0 < poolHeader := by decide
  have hph : poolHeader % 4 = 0 := by decide
  have hmt := symsLen_mod (D.syms true)
  have a1 : poolHeader + symsLen (D.syms true) + symsLen (D.syms false) ≤ P.tags.names := h.names true
  have a3 := (kt.names (by omega)).2.2.1
  have hle : poolHeader + symsLen (D.syms true) + symsLen (D.syms false) ≤ P.alloc := by omega
  have hel : ∀ e, ¬ D.cleared.forest.Elem e := by
    intro e
    simp [Forest.Elem, Doc.cleared, Doc.empty, Forest.none]
  refine ⟨⟨⟨⟨hP.head, hP.al, hP.le, hP.lim, hP.map, hP.page⟩, k.sees.small, by simp, by simp, by simp, by simp, by simp, by simp⟩, ?_, fun b => ?_, fun b hr => absurd hr Bool.false_ne_true, by simp, ?_, rfl⟩, rfl, Or.inl rfl⟩
  · refine ⟨?_, by simp [Doc.cleared, Doc.empty, Forest.none], by simp [Doc.cleared, Doc.empty, Forest.none], fun _ => trivial, by simp, by simp [Doc.cleared, Doc.empty, Forest.none], by simp,
      by simp [Doc.cleared, Doc.empty, Forest.none], by simp [Doc.cleared, Doc.empty, Forest.none], by simp [Doc.cleared, Doc.empty, Forest.none]⟩
    intro e
    simp [Forest.Elem, Doc.cleared, Doc.empty, Forest.none]
  · cases b
    · exact kp.moved (Q := P.movedTo D) (by omega) (by omega) (by show _ ≤ P.alloc; omega) (Has.self _ _ _)
    · refine kt.moved (Q := P.movedTo D) (Nat.le_refl _) hph (by show _ ≤ P.alloc; omega) ((Has.self P.mem _ _).congr fun i i1 i2 => ?_)
      rw [encSyms_length] at i2
      exact memPut_frame _ _ _ _ (Or.inl (by omega))
  · have hin : ∀ p i, inPart (P.movedTo D) { D.cleared with ready := fun _ => false } p i → (p = .names true ∧ i < poolHeader + symsLen (D.syms true)) ∨ (p = .names false ∧ poolHeader + symsLen (D.syms true) ≤ i) := by
      intro p i hp
      cases p with
      | elem e => exact absurd hp.1 (hel e)
      | names b =>
        cases b
        · exact Or.inr ⟨rfl, hp.2.1⟩
        · exact Or.inl ⟨rfl, hp.2.2⟩
      | index b =>
        cases b
        · exact absurd rfl hp.1
        · exact absurd rfl hp.1
    intro p q i h1 h2
    rcases hin p i h1 with ⟨rfl, e1⟩ | ⟨rfl, e1⟩ <;> rcases hin q i h2 with ⟨rfl, e2⟩ | ⟨rfl, e2⟩
    · rfl
    · omega
    · omega
    · rfl

/-- killed while the names are copied -/
theorem moving_keeps {P : Pool} {D : Doc} {els V fl} (k : Keeps P D els V fl) (h : Away P D) {m : Mem} (hm : ∀ i, poolHeader + symsLen (D.syms true) + symsLen (D.syms false) ≤ i → m i = P.mem i) :
    Keeps { P with root := 0, mem := m } { D.cleared with ready := D.ready } [] (fun _ _ => 0) (fun _ => 0) := by
  have hP := k.sees.ok
  have hb : ∀ b, TabOk { P with root := 0, mem := m } (P.tab b) (D.syms b) := fun b => (k.tabs b).frame (Nat.le_refl _) fun i hi => hm i (by
    have := h.names b
    have := h.index b
    rcases hi with ⟨i1, i2, i3⟩ | ⟨i1, i2, i3⟩
    · omega
    · omega)
  refine k.bare (Q := { P with root := 0, mem := m }) ⟨hP.head, hP.al, hP.le, hP.lim, hP.map, hP.page⟩ rfl rfl (fun b => ?_) (fun b => ?_) (fun b i => ?_) (fun b i => ?_)
  · have := hb b; cases b <;> exact this
  · have := k.rdy b; cases b <;> exact this
  · cases b <;> exact id
  · cases b <;> exact id

/-- the table of tags has been stored, that of attributes has not -/
theorem half_keeps {P : Pool} {D : Doc} {els V fl} (k : Keeps P D els V fl) (h : Away P D) {m : Mem} (hm : ∀ i, poolHeader + symsLen (D.syms true) + symsLen (D.syms false) ≤ i → m i = P.mem i)
    (hh : Has m poolHeader (encSyms 0 (D.syms true))) :
    Keeps { P with root := 0, tags := { P.tags with names := poolHeader, index := 0 }, mem := m } { D.cleared with ready := fun b => !b && D.ready b } [] (fun _ _ => 0) (fun _ => 0) := by
  have hP := k.sees.ok
  have kt : TabOk P P.tags (D.syms true) := k.tabs true
  have kp : TabOk P P.params (D.syms false) := k.tabs false
  have hhd : 0 < poolHeader := by decide
  have hph : poolHeader % 4 = 0 := by decide
  have a1 : poolHeader + symsLen (D.syms true) + symsLen (D.syms false) ≤ P.tags.names := h.names true
  have a2 : poolHeader + symsLen (D.syms true) + symsLen (D.syms false) ≤ P.params.names := h.names false
  have a4 : P.params.index = 0 ∨ poolHeader + symsLen (D.syms true) + symsLen (D.syms false) ≤ P.params.index := h.index false
  have a3 := (kt.names (by omega)).2.2.1
  have hel : ∀ e, ¬ D.cleared.forest.Elem e := by
    intro e
    simp [Forest.Elem, Doc.cleared, Doc.empty, Forest.none]
  refine ⟨⟨⟨hP.head, hP.al, hP.le, hP.lim, hP.map, hP.page⟩, k.sees.small, by simp, by simp, by simp, by simp, by simp, by simp⟩, ?_, fun b => ?_, fun b => ?_, by simp, ?_, rfl⟩
  · refine ⟨?_, by simp [Doc.cleared, Doc.empty, Forest.none], by simp [Doc.cleared, Doc.empty, Forest.none], fun _ => trivial, by simp, by simp [Doc.cleared, Doc.empty, Forest.none], by simp,
      by simp [Doc.cleared, Doc.empty, Forest.none], by simp [Doc.cleared, Doc.empty, Forest.none], by simp [Doc.cleared, Doc.empty, Forest.none]⟩
    intro e
    simp [Forest.Elem, Doc.cleared, Doc.empty, Forest.none]
  · cases b
    · refine kp.frame (Nat.le_refl _) fun i hi => hm i ?_
      rcases hi with ⟨i1, i2, i3⟩ | ⟨i1, i2, i3⟩
      · omega
      · omega
    · exact kt.moved (Q := { P with root := 0, tags := { P.tags with names := poolHeader, index := 0 }, mem := m }) (Nat.le_refl _) hph (by show _ ≤ P.alloc; omega) hh
  · cases b
    · intro hr; exact k.rdy false (by simpa using hr)
    · intro hr; simp at hr
  · have hin : ∀ p i, inPart { P with root := 0, tags := { P.tags with names := poolHeader, index := 0 }, mem := m } { D.cleared with ready := fun b => !b && D.ready b } p i →
        (p = .names true ∧ i < poolHeader + symsLen (D.syms true)) ∨ ((p = .names false ∨ p = .index false) ∧ inPart P D p i ∧ poolHeader + symsLen (D.syms true) ≤ i) := by
      intro p i hp
      cases p with
      | elem e => exact absurd hp.1 (hel e)
      | names b =>
        cases b
        · refine Or.inr ⟨Or.inl rfl, hp, ?_⟩
          obtain ⟨-, i2, -⟩ := hp
          replace i2 : P.params.names ≤ i := i2
          omega
        · exact Or.inl ⟨rfl, hp.2.2⟩
      | index b =>
        cases b
        · refine Or.inr ⟨Or.inr rfl, hp, ?_⟩
          obtain ⟨i1, i2, -⟩ := hp
          replace i2 : P.params.index ≤ i := i2
          replace i1 : P.params.index ≠ 0 := i1
          omega
        · exact absurd rfl hp.1
    intro p q i h1 h2
    rcases hin p i h1 with ⟨e, e1⟩ | ⟨-, e, e1⟩ <;> rcases hin q i h2 with ⟨e', e2⟩ | ⟨-, e', e2⟩
    · rw [e, e']
    · omega
    · omega
    · exact k.apart p q i e e'

end BX
