import Verif.Props.CrashFirst
/-
C69: the process is killed while the type of a symbol is changed.
-/
namespace BX
open XBT Spec

/-- at most one byte is stored -/
theorem byte_killed {P Q C : Pool} {ss : List Store} (h : ss = [] ∨ ∃ a c, ss = [.byte a c]) (hq : P.stores ss = .ok Q) (hC : P.KilledIn ss C) : C = P ∨ C = Q := by
  rcases h with rfl | ⟨a, c, rfl⟩
  · obtain ⟨done, rest, h1, h2⟩ := hC
    obtain ⟨rfl, rfl⟩ := List.append_eq_nil_iff.1 h1.symm
    rcases h2 with h2 | ⟨a, bs, rest', R, m, e, -⟩
    · cases h2; exact Or.inl rfl
    · cases e
  · obtain ⟨R, r1, r2⟩ := Out.bind_eq_ok (show (P.store1 (.byte a c) >>= fun S => S.stores []) = .ok Q from hq)
    cases r2
    rcases killed_cons (by simp) r1 hC with rfl | hC
    · exact Or.inl rfl
    · obtain ⟨done, rest, h1, h2⟩ := hC
      obtain ⟨rfl, rfl⟩ := List.append_eq_nil_iff.1 h1.symm
      rcases h2 with h2 | ⟨a, bs, rest', R, m, e, -⟩
      · cases h2; exact Or.inr rfl
      · cases e

/-- the stores of registering a name that is there already -/
theorem known_stores {P Q : Pool} {D : Doc} {els V fl} (k : Keeps P D els V fl) {b : Bool} {name : BStr} {t : XBT} (hg : GoodName name) (hk : Known (D.syms b) name) {id : Int} (ho : P.register b name t = .ok (Q, id)) (hid : 0 ≤ id) :
    ∃ ss, P.knownStores b name t = .ok ss ∧ P.stores ss = .ok Q ∧ (ss = [] ∨ ∃ a c, ss = [.byte a c]) := by
  have h := k.tabs b
  obtain ⟨s0, hs0, hn0⟩ := hk
  have hl : D.syms b ≠ [] := by intro e; rw [e] at hs0; simp at hs0
  have hst : P.startNames b = P := by unfold Pool.startNames; rw [if_neg (h.some hl)]
  have hlook : P.lookup b name = .ok (findRec name (P.tab b).names 0 (D.syms b)) := by
    unfold Pool.lookup
    rw [if_neg (by rw [h.slow]; simp), getByName_ok k.sees.ok k.sees.small h hg]
  unfold Pool.register at ho
  split at ho
  · simp only [Out.pure_eq, Out.ok.injEq, Prod.mk.injEq] at ho; omega
  rw [hst] at ho
  simp only [hlook, Out.ok_bind] at ho
  unfold Pool.knownStores
  rw [hlook, Out.ok_bind]
  cases hf : findRec name (P.tab b).names 0 (D.syms b) with
  | none => exact absurd hn0 (findRec_none _ hf s0 hs0)
  | some x =>
    obtain ⟨l1, s, l2, -, -, -, hx⟩ := findRec_some _ hf
    rw [hf] at ho
    simp only at ho ⊢
    rw [if_pos (by rw [hx]; simp only; omega)] at ho
    obtain ⟨R, h2, ho⟩ := Out.bind_eq_ok ho
    simp only [Out.pure_eq, Out.ok.injEq, Prod.mk.injEq] at ho
    obtain ⟨rfl, rfl⟩ := ho
    unfold Pool.extendType at h2
    by_cases ht : x.type = t.code
    · rw [if_pos ht] at h2 ⊢
      cases h2
      exact ⟨[], rfl, rfl, Or.inl rfl⟩
    · rw [if_neg ht] at h2 ⊢
      cases hu : ofCode x.type with
      | none => rw [hu] at h2; cases h2
      | some u =>
        rw [hu] at h2
        refine ⟨_, rfl, ?_, Or.inr ⟨_, _, rfl⟩⟩
        show (P.wr _ _ >>= fun S => Out.ok S) = _
        simp only at h2
        rw [h2]; rfl

/-- a process killed while a name that is there already is registered, perhaps with another type: the file opens, and the document is the one before or after the call -/
theorem C69_known {E : Env} {maxSize : Nat} (h1 : 0x4000 ≤ maxSize) (h2 : maxSize < 2147483648) {P Q : Pool} {D : Doc} (h : Sess E maxSize P D) {b : Bool} {name : BStr} {t : XBT} (hne : name ≠ [])
    (hnn : ∀ x ∈ name, x ≠ 0) (hk : Known (D.syms b) name) {id : Int} (ho : P.register b name t = .ok (Q, id)) (hid : 0 ≤ id) :
    ∃ ss, P.knownStores b name t = .ok ss ∧ P.stores ss = .ok Q ∧
      ∀ C, P.KilledIn ss C → RecoversAs E C.file D ∨ RecoversAs E C.file (D.setSyms b (registered (D.syms b) name t) (D.ready b)) := by
  obtain ⟨⟨els, V, fl, k⟩, low⟩ := sess_both h1 h2 h
  obtain ⟨ss, s1, s2, s3⟩ := known_stores k ⟨hne, hnn⟩ hk ho hid
  refine ⟨ss, s1, s2, fun C hC => ?_⟩
  obtain ⟨⟨els', V', fl', k'⟩, low'⟩ := sess_both h1 h2 (Sess.registered h hne hnn (Or.inr hk) ho hid)
  rcases byte_killed s3 s2 hC with rfl | rfl
  · exact Or.inl (k.recovers low)
  · exact Or.inr (k'.recovers low')

/-- a process killed while the type of a symbol is changed: the file opens, and the document is the one before or after the call -/
theorem C69_alter {E : Env} {maxSize : Nat} (h1 : 0x4000 ≤ maxSize) (h2 : maxSize < 2147483648) {P Q : Pool} {D : Doc} (h : Sess E maxSize P D) {b : Bool} {id : Int} {t : XBT} (ho : P.alter b id t = .ok (Q, true)) :
    ∃ ss, P.alterStores b id t = .ok ss ∧ P.stores ss = .ok Q ∧
      ∀ C, P.KilledIn ss C → RecoversAs E C.file D ∨ RecoversAs E C.file (D.setSyms b (retyped (D.syms b) id.toNat t) (D.ready b)) := by
  obtain ⟨⟨els, V, fl, k⟩, low⟩ := sess_both h1 h2 h
  obtain ⟨⟨els', V', fl', k'⟩, low'⟩ := sess_both h1 h2 (Sess.altered h ho)
  obtain ⟨ss, s1, s2, s3⟩ : ∃ ss, P.alterStores b id t = .ok ss ∧ P.stores ss = .ok Q ∧ (ss = [] ∨ ∃ a c, ss = [.byte a c]) := by
    unfold Pool.alter at ho
    split at ho
    · simp at ho
    obtain ⟨r, r1, ho⟩ := Out.bind_eq_ok ho
    unfold Pool.alterStores
    rw [r1, Out.ok_bind]
    cases r with
    | none => simp at ho
    | some o =>
      simp only at ho ⊢
      obtain ⟨c, c1, ho⟩ := Out.bind_eq_ok ho
      cases hu : ofCode c with
      | none => rw [hu] at ho; cases ho
      | some u =>
        rw [hu] at ho
        simp only at ho
        split at ho
        · obtain ⟨R, r2, ho⟩ := Out.bind_eq_ok ho
          simp only [Out.pure_eq, Out.ok.injEq, Prod.mk.injEq, and_true] at ho
          subst ho
          refine ⟨_, rfl, ?_, Or.inr ⟨_, _, rfl⟩⟩
          show (P.wr _ _ >>= fun S => Out.ok S) = _
          rw [r2]; rfl
        · simp at ho
  refine ⟨ss, s1, s2, fun C hC => ?_⟩
  rcases byte_killed s3 s2 hC with rfl | rfl
  · exact Or.inl (k.recovers low)
  · exact Or.inr (k'.recovers low')

/-- an attribute is registered again, with another type -/
example : ∃ D Q ss, Sess demoEnv 0x8000 clr4 D ∧ clr4.register false (b8 "id") STRING = .ok (Q, 0) ∧ clr4.knownStores false (b8 "id") STRING = .ok ss ∧ ss.length = 1 ∧
    ∀ C, clr4.KilledIn ss C → RecoversAs demoEnv C.file D ∨ RecoversAs demoEnv C.file (D.setSyms false (registered (D.syms false) (b8 "id") STRING) (D.ready false)) := by
  obtain ⟨D, d1, d2, d3, d4, d5⟩ := clr_sess4
  obtain ⟨Q, hq⟩ : ∃ Q, clr4.register false (b8 "id") STRING = .ok (Q, 0) := ⟨_, poolOfReg_eq (by decide +kernel)⟩
  obtain ⟨ss, s1, s2, s3⟩ := C69_known (by decide) (by decide) d1 (by decide) (by decide) (by rw [d3]; exact ⟨_, List.mem_singleton.2 rfl, rfl⟩) hq (by decide)
  have hlen : (match clr4.knownStores false (b8 "id") STRING with | .ok ss => ss.length == 1 | _ => false) = true := by decide +kernel
  rw [s1] at hlen
  exact ⟨D, Q, ss, d1, hq, s1, by simpa using hlen, s3⟩

/-- the type of an attribute is changed -/
theorem alter_case : (match clr4.alter false 0 STRING with | .ok (_, true) => true | _ => false) = true := by decide +kernel
example : ∃ D Q ss, Sess demoEnv 0x8000 clr4 D ∧ clr4.alter false 0 STRING = .ok (Q, true) ∧ clr4.alterStores false 0 STRING = .ok ss ∧ clr4.stores ss = .ok Q ∧
    ∀ C, clr4.KilledIn ss C → RecoversAs demoEnv C.file D ∨ RecoversAs demoEnv C.file (D.setSyms false [⟨b8 "id", STRING⟩] (D.ready false)) := by
  obtain ⟨D, d1, d2, d3, d4, d5⟩ := clr_sess4
  have ha := alter_case
  cases hq : clr4.alter false 0 STRING with
  | fail => rw [hq] at ha; simp at ha
  | ub => rw [hq] at ha; simp at ha
  | ok x =>
    obtain ⟨Q, r⟩ := x
    rw [hq] at ha
    cases r with
    | false => simp at ha
    | true =>
      obtain ⟨ss, s1, s2, s3⟩ := C69_alter (by decide) (by decide) d1 hq
      refine ⟨D, Q, ss, d1, rfl, s1, s2, ?_⟩
      rw [d3] at s3
      exact s3

end BX
