import Verif.Lemmas.Joins
import Verif.Props.Rings
/-
Property C36, for all calls of `join`.
-/
namespace BX
open XBT Spec

/-- the histories of `C36_lists_partial` are among these -/
theorem Spec.Hist.any {E : Env} {maxSize : Nat} {P : Pool} {F : Forest} (h : Hist E maxSize P F) : AnyHist E maxSize P F := by
  induction h with
  | start => exact .start
  | made _ hm hk ih => exact .made ih hm hk
  | refused _ hm ih => exact .refused ih hm
  | step _ hs hr ih => exact .step ih hs hr

/-- C36: as `C36_lists_partial`, for histories in which `join` is also called on a detached element with one of a list as argument, with
two elements of one list or circle, and with twice the same element: enumerating gives the lists of the specification. Excluded are
the replacement of an only child (`C36_replace_single_false`), `join` of elements of two lists (`C36_two_lists_false`), and `join` of a
tag with an attribute. -/
theorem C36_joins_partial (E : Env) (maxSize : Nat) (h1 : 0x4000 ≤ maxSize) (h2 : maxSize < 2147483648) (P : Pool) (F : Forest) (h : AnyHist E maxSize P F) (p : Nat) (hp : F.Elem p)
    (fuel : Nat) (hf : (F.at' (.kids p)).length < fuel) (hf' : (F.at' (.attrs p)).length < fuel) :
    P.forwards p fuel 0 = .ok ((F.at' (.kids p)).map Int.ofNat) ∧ P.backwards p fuel 0 = .ok ((F.at' (.kids p)).reverse.map Int.ofNat) ∧
    P.listAt p 16 fuel = .ok ((F.at' (.kids p)).map Int.ofNat) ∧ P.listAt p 20 fuel = .ok ((F.at' (.attrs p)).map Int.ofNat) := by
  obtain ⟨els, V, fl, s, r⟩ := anyHist_rep h1 h2 h
  have hpe := (r.mem p).1 hp
  exact ⟨enum_forwards s r hpe hf, enum_backwards s r hpe hf, enum_list s r hpe (Or.inl rfl) hf, enum_list s r hpe (Or.inr rfl) hf'⟩

/-- C36: in these histories each of the operations succeeds, and so do these calls of `join`; no element is in two places, or twice in
one. -/
theorem C36_joins_succeed (E : Env) (maxSize : Nat) (h1 : 0x4000 ≤ maxSize) (h2 : maxSize < 2147483648) (P : Pool) (F : Forest) (h : AnyHist E maxSize P F) :
    (∀ op G, Step F op G → ∃ Q, op.run P = .ok Q ∧ AnyHist E maxSize Q G) ∧ (∀ a b G, OtherJoin F a b G → ∃ Q, P.join a b = .ok Q ∧ AnyHist E maxSize Q G) ∧
    (∀ q, (F.at' q).Nodup) ∧ ∀ q r e, e ∈ F.at' q → e ∈ F.at' r → q = r := by
  obtain ⟨els, V, fl, s, r⟩ := anyHist_rep h1 h2 h
  refine ⟨?_, ?_, r.nodup, r.disj⟩
  · intro op G hs
    obtain ⟨Q, -, -, hq, -⟩ := step_spec s r hs
    exact ⟨Q, hq, .step h hs hq⟩
  · intro a b G hs
    obtain ⟨Q, -, hq, -⟩ := otherJoin_spec s r hs
    exact ⟨Q, hq, .joined h hs hq⟩

/-- there are always unused names of circles -/
theorem put_free {F : Forest} {q : Place} {l : List Nat} (h : ∃ n, ∀ k, n ≤ k → F.at' (.loose k) = []) : ∃ n, ∀ k, n ≤ k → (F.put q l).at' (.loose k) = [] := by
  obtain ⟨n, hn⟩ := h
  cases q with
  | kids p => exact ⟨n, fun k hk => by rw [put_at, if_neg (by simp)]; exact hn k hk⟩
  | attrs p => exact ⟨n, fun k hk => by rw [put_at, if_neg (by simp)]; exact hn k hk⟩
  | loose j =>
    refine ⟨max n (j + 1), fun k hk => ?_⟩
    rw [put_at, if_neg (by intro h'; cases h'; omega)]
    exact hn k (by omega)

theorem anyHist_free {E : Env} {maxSize : Nat} {P : Pool} {F : Forest} (h : AnyHist E maxSize P F) : ∃ n, ∀ k, n ≤ k → F.at' (.loose k) = [] := by
  induction h with
  | start => exact ⟨0, fun _ _ => rfl⟩
  | made _ _ _ ih => exact put_free ih
  | refused _ _ ih => exact ih
  | step _ hs _ ih => cases hs <;> exact put_free (put_free ih)
  | joined _ hs _ ih =>
    cases hs with
    | insert => exact put_free (put_free ih)
    | self => exact ih
    | split => split <;> exact put_free (put_free ih)

/-- C36: every call of `join` with two elements of the same kind is one of these, or its elements are in the lists of two elements of
the document (or in the two lists of one). -/
theorem C36_joins_all (E : Env) (maxSize : Nat) (h1 : 0x4000 ≤ maxSize) (h2 : maxSize < 2147483648) (P : Pool) (F : Forest) (h : AnyHist E maxSize P F) (a b : Nat) (ha : F.Elem a) (hb : F.Elem b)
    (ht : F.tag a = F.tag b) :
    (∃ G, Step F (.join a b) G) ∨ (∃ G, OtherJoin F a b G) ∨ ∃ p q, p ≠ q ∧ a ∈ F.at' (F.home p a) ∧ b ∈ F.at' (F.home q b) := by
  obtain ⟨els, V, fl, s, r⟩ := anyHist_rep h1 h2 h
  obtain ⟨qa, ha⟩ := ha
  obtain ⟨qb, hb⟩ := hb
  obtain ⟨n, hn⟩ := anyHist_free h
  replace hn := hn n (Nat.le_refl _)
  have home : ∀ {q e}, e ∈ F.at' q → (∃ p, q = F.home p e) ∨ ∃ k, q = .loose k := by
    intro q e he
    cases q with
    | kids p => exact Or.inl ⟨p, by unfold Forest.home; rw [if_pos (r.kids p e he)]⟩
    | attrs p => exact Or.inl ⟨p, by unfold Forest.home; rw [if_neg (by rw [r.attrs p e he]; simp)]⟩
    | loose k => exact Or.inr ⟨k, rfl⟩
  by_cases hab : a = b
  · subst hab; exact Or.inr (Or.inl ⟨_, .self ⟨_, ha⟩⟩)
  by_cases hq : qa = qb
  · subst hq
    refine Or.inr (Or.inl ?_)
    obtain ⟨x, y, hxy, -, -⟩ := split_at ha
    have hb' := hb
    rw [hxy] at hb'
    rcases List.mem_append.1 hb' with hb' | hb'
    · obtain ⟨u, v, huv, -, -⟩ := split_at hb'
      exact ⟨_, .split (x := u) (c := b) (y := v) (d := a) (z := y) (by rw [hxy, huv]) hn (Or.inr ⟨rfl, rfl⟩)⟩
    · have hb' : b ∈ y := by
        rcases List.mem_cons.1 hb' with h' | h'
        · exact absurd h'.symm hab
        · exact h'
      obtain ⟨u, v, huv, -, -⟩ := split_at hb'
      exact ⟨_, .split (x := x) (c := a) (y := u) (d := b) (z := v) (by rw [hxy, huv]; simp) hn (Or.inl ⟨rfl, rfl⟩)⟩
  rcases home ha with ⟨p, rfl⟩ | ⟨j, rfl⟩ <;> rcases home hb with ⟨q, rfl⟩ | ⟨k, rfl⟩
  · refine Or.inr (Or.inr ⟨p, q, ?_, ha, hb⟩)
    rintro rfl
    exact hq (by unfold Forest.home; rw [ht])
  · exact Or.inl ⟨_, .splice ha hb ht⟩
  · exact Or.inr (Or.inl ⟨_, .insert ha hb ht⟩)
  · exact Or.inl ⟨_, .join (by rintro rfl; exact hq rfl) ha hb ht⟩

/-- 116 and 144 are children of 92; `172.join(144)` inserts 172 in front of 144; then `116.join(144)` takes 144 out of the list, and 116
and 172 remain in it -/
example : ∃ P F P' F', AnyHist demoEnv 0x8000 P F ∧ F.at' (.kids 92) = [116, 172, 144] ∧ P.forwards 92 5 0 = .ok [116, 172, 144] ∧
    AnyHist demoEnv 0x8000 P' F' ∧ P.join 116 144 = .ok P' ∧ F'.at' (.kids 92) = [116, 172] ∧ F'.at' (.loose 9) = [144] ∧ P'.forwards 92 5 0 = .ok [116, 172] ∧ P'.backwards 92 5 0 = .ok [172, 116] := by
  obtain ⟨P1, -, h1⟩ := (C36_joins_succeed demoEnv 0x8000 (by decide) (by decide) _ _ demo_hist5.any).1 _ _ (Step.add (p := 92) (t := 144) (k := 2) ⟨.loose 0, by decide⟩ (by decide))
  obtain ⟨P2, -, h2⟩ := (C36_joins_succeed demoEnv 0x8000 (by decide) (by decide) _ _ h1).2.1 _ _ _ (OtherJoin.insert (p := 92) (a := 172) (b := 144) (k := 3) (by decide) (by decide) rfl)
  obtain ⟨P3, e3, h3⟩ := (C36_joins_succeed demoEnv 0x8000 (by decide) (by decide) _ _ h2).2.1 _ _ _
    (OtherJoin.split (q := .kids 92) (x := []) (c := 116) (y := [172]) (d := 144) (z := []) (a := 116) (b := 144) (k := 9) (by decide) (by decide) (Or.inl ⟨rfl, rfl⟩))
  have r2 := C36_joins_partial demoEnv 0x8000 (by decide) (by decide) _ _ h2 92 ⟨.loose 0, by decide⟩ 5 (by decide) (by decide)
  have r3 := C36_joins_partial demoEnv 0x8000 (by decide) (by decide) _ _ h3 92 ⟨.loose 0, by decide⟩ 5 (by decide) (by decide)
  exact ⟨P2, _, P3, _, h2, by decide, r2.1, h3, e3, by decide, by decide, r3.1, r3.2.1⟩

/-- the pool in which 116 is the child of 92 and 172 that of 144, and after `116.join(172)` -/
def demo7 : Pool := poolOf' (demo5.add 144 (some 172))
def demoF7 : Forest := (demoF5.put (.kids 144) [172]).put (.loose 3) []
def demo8 : Pool := poolOf' (demo7.join 116 172)

/-- C36 is false when `join` is called with children of two elements: the call succeeds, and each of the children is then enumerated
for both. -/
theorem C36_two_lists_false : Hist demoEnv 0x8000 demo7 demoF7 ∧ demoF7.at' (.kids 92) = [116] ∧ demoF7.at' (.kids 144) = [172] ∧ demoF7.tag 116 = demoF7.tag 172 ∧
    demo7.join 116 172 = .ok demo8 ∧ demo8.forwards 92 5 0 = .ok [116, 172] ∧ demo8.forwards 144 5 0 = .ok [172, 116] := by
  refine ⟨?_, by decide, by decide, by decide, poolOf'_eq (by decide +kernel), by decide +kernel, by decide +kernel⟩
  have m : (ListOp.add 144 172).run demo5 = .ok demo7 := poolOf'_eq (by decide +kernel)
  exact .step demo_hist5 (Step.add (F := demoF5) (p := 144) (t := 172) (k := 3) ⟨.loose 2, by decide⟩ (by decide)) m

end BX
