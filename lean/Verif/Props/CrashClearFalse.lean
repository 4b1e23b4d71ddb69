import Verif.Props.CrashClear
/-
C69: a crash in `Clear` that loses names. C39: a `Clear` that fails gives an attribute another name.
-/
namespace BX
open XBT Spec

/-- an attribute is registered after an element was made, so that the names of the attributes have moved by less than their size -/
def far1 : Pool := poolOfReg (clr4.register false (b8 "internal_office_phone_nr") STRING)
/-- the names of the attributes are moved -/
def farMove : List UInt8 := [0, 0, INT32.code] ++ b8 "id" ++ [0, 0, 0, 1, 0, STRING.code] ++ b8 "internal_office_phone_nr" ++ [0]
def farTorn : Pool := poolOf' (Pool.stores { far1 with root := 0 } [.bytes (104 : Nat) farMove])
def farPlug : Plug := plugOf (openFile demoEnv false 0 farTorn.file)

theorem far_made : clr4.register false (b8 "internal_office_phone_nr") STRING = .ok (far1, 1) := poolOfReg_eq (by decide +kernel)
/-- the call and its stores give the same pool, the first store is the move -/
def farSame (P : Pool) (mv : List UInt8) : Out (Pool × Bool) → Out (List Store) → Bool
  | .ok (Q, true), .ok (.bytes a bs :: ss) => a == (104 : Nat) && bs == mv && (match P.stores (.bytes a bs :: ss) with
      | .ok R => Q.tags == R.tags && Q.params == R.params && Q.alloc == R.alloc && Q.root == R.root && slice Q.mem 0 256 == slice R.mem 0 256 | _ => false)
  | _, _ => false
theorem farSame_eq {P : Pool} {mv : List UInt8} {A : Out (Pool × Bool)} {B : Out (List Store)} (h : farSame P mv A B = true) :
    ∃ Q R ss, A = .ok (Q, true) ∧ B = .ok (.bytes (104 : Nat) mv :: ss) ∧ P.stores (.bytes (104 : Nat) mv :: ss) = .ok R ∧
      Q.tags = R.tags ∧ Q.params = R.params ∧ Q.alloc = R.alloc ∧ Q.root = R.root ∧ slice Q.mem 0 256 = slice R.mem 0 256 := by
  unfold farSame at h
  split at h
  · simp only [Bool.and_eq_true, beq_iff_eq] at h
    obtain ⟨⟨rfl, rfl⟩, h⟩ := h
    split at h
    · rename_i R hr
      simp only [Bool.and_eq_true, beq_iff_eq] at h
      exact ⟨_, R, _, rfl, rfl, hr, h.1.1.1.1, h.1.1.1.2, h.1.1.2, h.1.2, h.2⟩
    · cases h
  · cases h
theorem far_clear : farSame { far1 with root := 0 } farMove far1.clear (Pool.clearStores { far1 with root := 0 }) = true := by decide +kernel
theorem far_torn : Pool.stores { far1 with root := 0 } [.bytes (104 : Nat) farMove] = .ok farTorn := poolOf'_eq (by decide +kernel)
theorem far_opens : openFile demoEnv false 0 farTorn.file = .ok (some farPlug) := plugOf_eq (by decide +kernel)
theorem far_lost : (match farPlug.pool.allRegistered demoEnv with | .ok (Q, true) => Q.symName false 0 == .ok none && Q.symName false 1 == .ok none | _ => false) = true := by decide +kernel
theorem far_refused : farPlug.pool.register false (b8 "id") INT32 = .ok (poolOfReg (farPlug.pool.register false (b8 "id") INT32), -1) := poolOfReg_eq (by decide +kernel)

/-- killed in `Clear` while names of attributes are moved by less than their size: the file opens, but all attributes have lost their names, and a name that was known cannot be
registered. (The stores are those of the call: together they give the same pool.) -/
theorem C69_clear_false : (∃ D, Sess demoEnv 0x8000 far1 D ∧ D.syms false = [⟨b8 "id", INT32⟩, ⟨b8 "internal_office_phone_nr", STRING⟩]) ∧ ∃ ss, Pool.clearStores { far1 with root := 0 } = .ok ss ∧
    (∃ Q R, far1.clear = .ok (Q, true) ∧ Pool.stores { far1 with root := 0 } ss = .ok R ∧ Q.tags = R.tags ∧ Q.params = R.params ∧ Q.alloc = R.alloc ∧ Q.root = R.root ∧ slice Q.mem 0 256 = slice R.mem 0 256) ∧
    ∃ C g Q R, Pool.KilledIn { far1 with root := 0 } ss C ∧ openFile demoEnv false 0 C.file = .ok (some g) ∧ g.pool.allRegistered demoEnv = .ok (Q, true) ∧
      Q.symName false 0 = .ok none ∧ Q.symName false 1 = .ok none ∧ g.pool.register false (b8 "id") INT32 = .ok (R, -1) := by
  obtain ⟨D, d1, d2, d3, d4, d5⟩ := clr_sess4
  have s5 := Sess.registered d1 (by decide) (by decide) (Or.inl (by rw [d3]; decide)) far_made (by decide)
  have f1 := farSame_eq far_clear
  have f2 := far_torn
  have f3 := far_opens
  have f4 := far_lost
  have f5 := far_refused
  generalize farMove = mv at *
  generalize farTorn = C at *
  generalize farPlug = g at *
  refine ⟨⟨_, s5, ?_⟩, ?_⟩
  · have e1 : ∀ l r, (D.setSyms false l r).syms false = l := fun _ _ => rfl
    rw [e1, d3]
    decide +kernel
  · obtain ⟨Q, R, ss, e1, e2, e3, e4⟩ := f1
    refine ⟨_, e2, ⟨Q, R, e1, e3, e4⟩, C, g, ?_⟩
    match hq : g.pool.allRegistered demoEnv with
    | .ok (Q, true) =>
      rw [hq] at f4
      simp at f4
      exact ⟨Q, _, ⟨[.bytes (104 : Nat) mv], ss, rfl, Or.inl f2⟩, f3, rfl, f4.1, f4.2, f5⟩
    | .ok (Q, false) => rw [hq] at f4; simp at f4
    | .fail => rw [hq] at f4; simp at f4
    | .ub => rw [hq] at f4; simp at f4

/-- tags and attributes are registered, then another tag, and the indexes are made -/
def ren1 : Pool := poolOfReg (clr2.register true (b8 "car") NULL)
def ren2 : Pool := poolOfB (ren1.allRegistered demoEnv)

theorem ren_clear : (match ren2.clear with | .ok (Q, false) => ren2.symName false 0 == .ok (some (b8 "id")) && Q.symName false 0 == .ok (some (b8 "car")) && Q.symName true 1 == .ok (some (b8 "car")) | _ => false) = true := by decide +kernel

/-- C39 is false when a tag has been registered after the attributes: Clear fails, and the attribute `id` is called `car` now, like the tag -/
theorem C39_renamed_false : (∃ D, Sess demoEnv 0x8000 ren2 D) ∧ ∃ Q, ren2.symName false 0 = .ok (some (b8 "id")) ∧ ren2.clear = .ok (Q, false) ∧ Q.symName false 0 = .ok (some (b8 "car")) ∧
    Q.symName true 1 = .ok (some (b8 "car")) := by
  have r1 : (Pool.empty 0x8000).register true (b8 "person") NULL = .ok (clr1, 0) := poolOfReg_eq (by decide +kernel)
  have r2 : clr1.register false (b8 "id") INT32 = .ok (clr2, 0) := poolOfReg_eq (by decide +kernel)
  have r3 : clr2.register true (b8 "car") NULL = .ok (ren1, 1) := poolOfReg_eq (by decide +kernel)
  have r4 : ren1.allRegistered demoEnv = .ok (ren2, true) := poolOfB_eq (by decide +kernel)
  have s1 := Sess.registered (E := demoEnv) (maxSize := 0x8000) Sess.start (by decide) (by decide) (Or.inl (by decide)) r1 (by decide)
  have s2 := Sess.registered s1 (by decide) (by decide) (Or.inl (by decide)) r2 (by decide)
  have s3 := Sess.registered s2 (by decide) (by decide) (Or.inl (by decide)) r3 (by decide)
  have f := ren_clear
  generalize ren2 = P at *
  match hc : P.clear with
  | .ok (Q, false) => rw [hc] at f; simp at f; exact ⟨⟨_, Sess.allRegistered s3 r4⟩, Q, f.1.1, rfl, f.1.2, f.2⟩
  | .ok (Q, true) => rw [hc] at f; simp at f
  | .fail => rw [hc] at f; simp at f
  | .ub => rw [hc] at f; simp at f

theorem clr_torn : (match Pool.clearStores { clr4 with root := 0 } with
    | .ok ss => (match Pool.stores { clr4 with root := 0 } ss, Pool.stores { clr4 with root := 0 } (ss.take 9) with
      | .ok Q, .ok C => C.alloc != clr4.alloc && C.alloc != Q.alloc && C.root == 0 | _, _ => false)
    | _ => false) = true := by decide +kernel

/-- the hypotheses of `C69_clear_stores` and `C69_clear_partial` are met: a document with an element is cleared, the process is killed while the index of the tags is made -/
example : ∃ D Q ss C, Sess demoEnv 0x8000 clr4 D ∧ D.forest.Elem 112 ∧ clr4.clear = .ok (Q, true) ∧ Pool.clearStores { clr4 with root := 0 } = .ok ss ∧ Pool.stores { clr4 with root := 0 } ss = .ok Q ∧
    Pool.KilledIn { clr4 with root := 0 } ss C ∧ C.alloc ≠ clr4.alloc ∧ C.alloc ≠ Q.alloc ∧ (OpensAs demoEnv C.file [D] ∨ ∃ r, OpensAs demoEnv C.file [{ D.cleared with ready := r }]) := by
  obtain ⟨D, h, h1, h2, h3, h4⟩ := clr_sess4
  have e1 : clr4.tags.names = poolHeader := by decide +kernel
  have e2 : clr4.params.names = poolHeader + symsLen (D.syms true) ∨ D.syms false = [] := Or.inl (by rw [h1]; decide +kernel)
  have e3 : poolHeader + symsLen (D.syms true) + symsLen (D.syms false) + 4 * (D.syms true).length + 4 * (D.syms false).length ≤ clr4.limit := by rw [h1, h2]; decide +kernel
  have f := clr_torn
  generalize clr4 = P at *
  match hs : Pool.clearStores { P with root := 0 } with
  | .ok ss =>
    rw [hs] at f
    simp only at f
    match hq : Pool.stores { P with root := 0 } ss, hc : Pool.stores { P with root := 0 } (ss.take 9) with
    | .ok Q, .ok C =>
      rw [hq, hc] at f
      simp at f
      have hk : Pool.KilledIn { P with root := 0 } ss C := ⟨_, _, (List.take_append_drop 9 _).symm, Or.inl hc⟩
      exact ⟨D, Q, ss, C, h, h4, (C69_clear_stores (by decide) (by decide) h e1 e2 e3).2 ⟨_, hs, hq⟩, rfl, hq, hk, f.1.1, f.1.2, (C69_clear_partial (by decide) (by decide) h e1 e2 e3 hs (Or.inr hk)).imp id And.left⟩
    | .ok Q, .fail => rw [hq, hc] at f; simp at f
    | .ok Q, .ub => rw [hq, hc] at f; simp at f
    | .fail, _ => rw [hq] at f; simp at f
    | .ub, _ => rw [hq] at f; simp at f
  | .fail => rw [hs] at f; simp at f
  | .ub => rw [hs] at f; simp at f

end BX
