import Verif.Model.Value
import Verif.Spec.Value
import Verif.Lemmas.Codec
namespace BX
open XBT Spec

/-! chunks -/

theorem text64_append (a b : List UInt8) (h : a.length % 3 = 0) : text64 (a ++ b) = text64 a ++ text64 b := by
  induction a using text64.induct with
  | case1 => simp [text64]
  | case2 x => simp at h
  | case3 x y => simp at h
  | case4 x y z r ih =>
    simp only [List.cons_append, text64_three]
    rw [ih (by simp at h; omega)]

theorem digit64_ne_nul (v : Nat) (h : v < 64) : digit64 v ≠ '\x00' := by
  have : ∀ v < 64, digit64 v ≠ '\x00' := by decide +kernel
  exact this v h

theorem group64_ne_nul (n : Nat) : ∀ c ∈ group64 n, c ≠ '\x00' := by
  intro c hc
  unfold group64 at hc
  simp only [List.mem_cons, List.not_mem_nil, or_false] at hc
  rcases hc with rfl | rfl | rfl | rfl <;> exact digit64_ne_nul _ (Nat.mod_lt _ (by omega))

theorem text64_ne_nul (d : List UInt8) : ∀ c ∈ text64 d, c ≠ '\x00' := by
  induction d using text64.induct with
  | case1 => simp [text64]
  | case2 a =>
    intro c hc
    simp only [text64, List.mem_append] at hc
    rcases hc with hc | hc
    · exact group64_ne_nul _ c (List.mem_of_mem_take hc)
    · simp at hc; subst hc; decide
  | case3 a b =>
    intro c hc
    simp only [text64, List.mem_append] at hc
    rcases hc with hc | hc
    · exact group64_ne_nul _ c (List.mem_of_mem_take hc)
    · simp at hc; subst hc; decide
  | case4 a b c r ih =>
    intro x hx
    simp only [text64, List.mem_append] at hx
    rcases hx with hx | hx
    · exact group64_ne_nul _ x hx
    · exact ih x hx

theorem mem_takeWhile_p {α : Type} (p : α → Bool) (s : List α) : ∀ c ∈ s.takeWhile p, p c = true := by
  induction s with
  | nil => simp
  | cons a s ih =>
    rw [List.takeWhile_cons]
    split
    · intro c hc
      rcases List.mem_cons.mp hc with rfl | hc
      · assumption
      · exact ih c hc
    · simp

theorem takeWhile_stop {α : Type} (p : α → Bool) (s : List α) (x : α) (r : List α) (hs : ∀ c ∈ s, p c = true) (hx : p x = false) :
    (s ++ x :: r).takeWhile p = s := by
  induction s with
  | nil => simp [hx]
  | cons a s ih => simp [hs a (by simp), ih (fun c hc => hs c (by simp [hc]))]

theorem bufText_put (b : CStr) (s : CStr) (hs : ∀ c ∈ s, c ≠ '\x00') : bufText (bufPut b 0 (s ++ ['\x00'])) = s := by
  unfold bufText bufPut
  simp only [List.take_zero, List.nil_append, List.append_assoc, List.singleton_append]
  exact takeWhile_stop _ _ _ _ (fun c hc => by simpa using hs c hc) (by simp)

theorem bufPut_length (b s : CStr) (pos : Nat) (h : pos + s.length ≤ b.length) : (bufPut b pos s).length = b.length := by
  unfold bufPut; simp; omega

theorem bufText_at (b s : CStr) (hs : ∀ c ∈ s, c ≠ '\x00') (h : b[s.length]? = some '\x00') :
    bufText (bufPut b 0 s) = s := by
  unfold bufText bufPut
  simp only [List.take_zero, List.nil_append, Nat.zero_add]
  rw [List.drop_eq_getElem?_toList_append, h]
  simp only [Option.toList, List.singleton_append]
  exact takeWhile_stop _ _ _ _ (fun c hc => by simpa using hs c hc) (by simp)

end BX
