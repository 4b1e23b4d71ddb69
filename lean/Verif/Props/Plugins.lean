import Verif.Spec.Plugins
/-
Property C40: the registry of plugins.
-/
namespace BX
open Spec

theorem bytesPtr_ptrBytes : ∀ (l : List Nat) (t : List UInt8), (∀ p ∈ l, p < 2 ^ 64) → bytesPtr l.length (ptrBytes l ++ t) = l
  | [], _, _ => rfl
  | p :: l, t, h => by
    have h1 : (leN 8 p).length = 8 := leN_length _ _
    simp only [List.length_cons, bytesPtr, ptrBytes, List.flatMap_cons, List.append_assoc]
    rw [List.take_append_of_le_length (by omega), List.take_of_length_le (by omega), List.drop_append_of_le_length (by omega), List.drop_of_length_le (by omega),
      rdN_leN, Nat.mod_eq_of_lt (by simpa using h p (by simp)), List.nil_append]
    have := bytesPtr_ptrBytes l t (fun q hq => h q (by simp [hq]))
    unfold ptrBytes at this
    rw [this]

theorem moveDown_zero (l : List Nat) (h : ∀ p ∈ l, p < 2 ^ 64) (i : Nat) : moveDown l i 0 = l := by
  unfold moveDown
  simp only [List.take_zero, List.append_nil, Nat.add_zero, List.take_append_drop]
  have := bytesPtr_ptrBytes l [] h
  rwa [List.append_nil] at this

/-- the registry holds the list `l` -/
structure Holds (r : Registry) (l : List Nat) : Prop where
  len : r.slots.length = 32
  count : r.count = l.length
  list : r.slots.take r.count = l
  le : l.length ≤ 32
  nodup : l.Nodup
  small : ∀ p ∈ r.slots, p < 2 ^ 64

theorem Holds.step {r : Registry} {l : List Nat} (h : Holds r l) (c : RegCall)
    (hc : match c with
      | .register p => 0 < p ∧ p < 2 ^ 64 ∧ p ∉ l
      | .unregister p => p ∈ l → l.getLast? = some p) :
    (r.step c).1 = liveOk l c ∧ Holds (r.step c).2 (liveStep l c) := by
  obtain ⟨h1, h2, h3, h4, h5, h6⟩ := h
  cases c with
  | register p =>
    simp only at hc
    unfold Registry.step Registry.register liveOk liveStep
    simp only
    rw [if_neg (by omega)]
    by_cases hl : 32 ≤ r.count
    · rw [if_pos hl, if_neg (by omega)]
      exact ⟨(decide_eq_false (by omega)).symm, h1, h2, h3, h4, h5, h6⟩
    · rw [if_neg hl, if_pos (by omega)]
      refine ⟨(decide_eq_true (by omega)).symm, by simp [h1], by simp [h2], ?_, by simp; omega, ?_, ?_⟩
      · simp only
        rw [List.take_succ, List.take_set_of_le (Nat.le_refl _), h3, List.getElem?_set_self (by omega)]
        rfl
      · rw [List.nodup_append]
        exact ⟨h5, by simp, fun a ha b hb => by simp at hb; subst hb; rintro rfl; exact hc.2.2 ha⟩
      · intro q hq
        rcases List.mem_or_eq_of_mem_set hq with hq | rfl
        · exact h6 q hq
        · exact hc.2.1
  | unregister p =>
    simp only at hc
    unfold Registry.step Registry.unregister liveOk liveStep
    simp only
    rw [h3]
    by_cases hp : p ∈ l
    · have hlast := hc hp
      obtain ⟨l', rfl⟩ := List.getLast?_eq_some_iff.1 hlast
      have hnot : p ∉ l' := by
        rw [List.nodup_append] at h5
        intro hm
        exact h5.2.2 p hm p (by simp) rfl
      have hidx : (l' ++ [p]).findIdx (· == p) = l'.length := by
        rw [List.findIdx_append, List.findIdx_eq_length_of_false]
        · simp [List.findIdx_cons]
        · intro x hx
          have : x ≠ p := by rintro rfl; exact hnot hx
          simpa using this
      simp only [List.length_append, List.length_cons, List.length_nil] at h2 h4
      rw [hidx, if_pos (by omega), h2]
      rw [show l'.length + (0 + 1) - 1 - l'.length = 0 by omega, moveDown_zero _ h6]
      refine ⟨by simp, h1, ?_, ?_, ?_, ?_, h6⟩
      · rw [List.erase_append_right _ hnot]
        simp
      · rw [List.erase_append_right _ hnot]
        simp only [List.erase_cons_head, List.append_nil]
        have := congrArg (List.take l'.length) h3
        rw [List.take_take, List.take_append_of_le_length (Nat.le_refl _), List.take_length, h2] at this
        rw [Nat.min_eq_left (by omega)] at this
        simpa using this
      · rw [List.erase_append_right _ hnot]
        simp; omega
      · exact h5.erase _
    · have hidx : l.findIdx (· == p) = l.length := by
        rw [List.findIdx_eq_length_of_false]
        intro x hx
        have : x ≠ p := by rintro rfl; exact hp hx
        simpa using this
      rw [hidx, if_neg (by omega), List.erase_of_not_mem hp]
      exact ⟨by simp [hp], h1, h2, h3, h4, h5, h6⟩

theorem Holds.run : ∀ (cs : List RegCall) {r : Registry} {l : List Nat}, Holds r l → Nested l cs → (r.run cs).1 = liveOks l cs ∧ Holds (r.run cs).2 (live l cs)
  | [], _, _, h, _ => ⟨rfl, h⟩
  | c :: cs, r, l, h, hc => by
    unfold Nested at hc
    obtain ⟨h1, h2⟩ := h.step c hc.1
    obtain ⟨h3, h4⟩ := Holds.run cs h2 hc.2
    refine ⟨?_, h4⟩
    show (r.step c).1 :: ((r.step c).2.run cs).1 = _
    rw [h1, h3]
    rfl

/-- C40: after any sequence of calls in which plugins are unregistered in the reverse order of their registration, the registry lists
exactly the plugins registered and not unregistered, in order; every call returned what it should. -/
theorem C40_nested_partial (cs : List RegCall) (h : Nested [] cs) :
    (Registry.init.run cs).2.list = live [] cs ∧ (Registry.init.run cs).1 = liveOks [] cs := by
  have h0 : Holds Registry.init [] := ⟨by simp [Registry.init], rfl, rfl, by simp, by simp, by
    intro p hp
    unfold Registry.init at hp
    simp only [List.mem_replicate] at hp
    omega⟩
  obtain ⟨h1, h2⟩ := Holds.run cs h0 h
  exact ⟨h2.list, h1⟩

/-- … and the plugin of a pool is found as long as it is registered. -/
theorem C40_found_partial (cs : List RegCall) (h : Nested [] cs) (pool : Nat → Nat) (p : Nat) (hp : p ∈ live [] cs) (hinj : ∀ q ∈ live [] cs, pool q = pool p → q = p) :
    (Registry.init.run cs).2.getPlugin pool (pool p) = some p := by
  unfold Registry.getPlugin
  have := (C40_nested_partial cs h).1
  unfold Registry.list at this
  rw [this]
  clear this
  generalize live [] cs = l at *
  induction l with
  | nil => simp at hp
  | cons q l ih =>
    by_cases hq : pool q = pool p
    · have := hinj q (by simp) hq
      subst this
      simp
    · rw [List.find?_cons_of_neg (by simpa using hq)]
      apply ih
      · rcases List.mem_cons.1 hp with rfl | hp
        · exact absurd rfl hq
        · exact hp
      · intro q hq; exact hinj q (by simp [hq])

/-- a history with 3 plugins meeting the hypotheses -/
example : Nested [] [.register 4096, .register 8192, .unregister 8192, .register 12288, .unregister 1, .unregister 12288] ∧
    live [] [.register 4096, .register 8192, .unregister 8192, .register 12288, .unregister 1, .unregister 12288] = [4096] := by
  refine ⟨?_, by decide +kernel⟩
  simp [Nested, liveStep]

/-- C40 is false in general: of two plugins the first is unregistered, and the registry lists it still, but not the other one; with
other addresses it lists a pointer to nothing. The number of bytes moved is the number of pointers. -/
theorem C40_order_false :
    live [] [.register 0x5000, .register 0x6000, .unregister 0x5000] = [0x6000] ∧
    (Registry.init.run [.register 0x5000, .register 0x6000, .unregister 0x5000]).2.list = [0x5000] ∧
    (Registry.init.run [.register 0x5010, .register 0x6020, .unregister 0x5010]).2.list = [0x5020] := by
  decide +kernel

end BX
