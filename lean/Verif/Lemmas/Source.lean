import Verif.Lemmas.Attrs
import Verif.Props.Rings
import Verif.Spec.Source
/-
Going through a writable document as a source.
-/
namespace BX
open XBT Spec

theorem at_ok {P : Pool} {els V fl} (s : Sees P els V fl) {e : Nat} (he : e ∈ els) : P.at' e = .ok e := by
  have := s.range e he
  have := s.size
  unfold Pool.at'
  rw [if_pos (by omega)]

theorem visitLoop_from {P : Pool} {els V fl} (s : Sees P els V fl) {c : Nat} : ∀ (l : List Nat) (a fuel : Nat),
    Links (V 8) (V 12) (a :: l ++ [c]) → (∀ x ∈ a :: l, x ∈ els) → c ∉ l → l.length < fuel → P.visitLoop c fuel a = .ok ((a :: l).map Int.ofNat)
  | [], a, fuel, hL, hm, hcl, hf => by
    obtain ⟨n, rfl⟩ : ∃ n, fuel = n + 1 := ⟨fuel - 1, by simp at hf; omega⟩
    have ha := hm a (by simp)
    have hnx : V 8 a = c := by simp [Links] at hL; exact hL.1
    unfold Pool.visitLoop
    rw [s.nx ha, Out.ok_bind, if_pos (by rw [hnx])]
    rfl
  | b :: l, a, fuel, hL, hm, hcl, hf => by
    obtain ⟨n, rfl⟩ : ∃ n, fuel = n + 1 := ⟨fuel - 1, by simp at hf; omega⟩
    have ha := hm a (by simp)
    simp only [List.cons_append, Links] at hL
    have hbc : b ≠ c := fun h' => hcl (by simp [h'])
    have ih := visitLoop_from s l b n hL.2 (fun x hx => hm x (List.mem_cons_of_mem _ hx)) (fun h' => hcl (List.mem_cons_of_mem _ h')) (by simp at hf; omega)
    unfold Pool.visitLoop
    rw [s.nx ha, Out.ok_bind, hL.1.1, if_neg (by omega), at_ok s (hm b (by simp)), Out.ok_bind, ih]
    rfl

/-- the elements of a list are visited in order -/
theorem visit_spec {P : Pool} {F : Forest} {els V fl} (s : Sees P els V fl) (r : Lists F els V fl) {p : Nat} (hp : p ∈ els) {k : Nat} (hk : k = 16 ∨ k = 20) {fuel : Nat}
    (hf : (F.at' (lst k p)).length < fuel) : P.visit p k fuel = .ok ((F.at' (lst k p)).map Int.ofNat) := by
  have hh := r.head p hp k hk
  have hr := r.ring (lst k p)
  have hn := r.nodup (lst k p)
  have hm : ∀ x ∈ F.at' (lst k p), x ∈ els := fun x hx => (r.mem x).1 ⟨_, hx⟩
  have hk' : IsPtr k := by unfold IsPtr; omega
  unfold Pool.visit
  rw [s.get hp hk' _ rfl, Out.ok_bind]
  cases hl : F.at' (lst k p) with
  | nil => rw [hl] at hh; replace hh : V k p = 0 := hh; rw [hh, if_pos (by simp)]; rfl
  | cons a l =>
    rw [hl] at hh hr hn hm hf
    have ha := hm a (by simp)
    have ha0 := s.lt ha
    have hh : V k p = a := hh
    rw [hh, if_neg (by omega), at_ok s ha, Out.ok_bind]
    exact visitLoop_from s l a fuel hr hm (List.nodup_cons.1 hn).1 (by simp at hf; omega)

theorem tops_length (ks : List ETree) : (tops ks).length = ks.length := by simp [tops]

mutual
theorem walk_spec {P : Pool} {D : Doc} {els V fl} (s : Sees P els V fl) (r : Lists D.forest els V fl) : ∀ (T : ETree) (fuel deep : Nat), D.Below T → T.top ∈ els → D.steps T ≤ fuel →
    P.walk fuel T.top deep = .ok (T.preorder deep)
  | .node e ks, fuel, deep, hb, he, hf => by
    unfold Doc.steps at hf
    unfold Doc.Below at hb
    obtain ⟨n, rfl⟩ : ∃ n, fuel = n + 1 := ⟨fuel - 1, by omega⟩
    have he : e ∈ els := he
    have hh := r.head e he 16 (Or.inl rfl)
    have hr := r.ring (.kids e)
    have hn := r.nodup (.kids e)
    have hm : ∀ x ∈ D.forest.at' (.kids e), x ∈ els := fun x hx => (r.mem x).1 ⟨_, hx⟩
    replace hh : V 16 e = (D.forest.at' (.kids e)).headD 0 := hh
    rw [hb.1] at hh hr hn hm
    show P.walk (n + 1) e deep = _
    unfold Pool.walk ETree.preorder
    rw [s.child he, Out.ok_bind]
    match ks, hb, hf, hh, hr, hn, hm with
    | [], hb, hf, hh, hr, hn, hm =>
      replace hh : V 16 e = 0 := hh
      rw [hh, if_pos (by simp)]
      unfold preorderAll; rfl
    | k :: ks, hb, hf, hh, hr, hn, hm =>
      replace hh : V 16 e = k.top := hh
      have hk := hm k.top (by simp [tops])
      have := s.lt hk
      rw [hh, if_neg (by omega), at_ok s hk, Out.ok_bind,
        walkLoop_spec s r k ks k.top n (deep + 1) hb.2 (show Links (V 8) (V 12) (tops (k :: ks) ++ [k.top]) from hr) (fun x hx => hm x (by simpa [tops] using hx)) (by simpa [tops] using (List.nodup_cons.1 hn).1) (by omega)]
      rfl
theorem walkLoop_spec {P : Pool} {D : Doc} {els V fl} (s : Sees P els V fl) (r : Lists D.forest els V fl) : ∀ (k : ETree) (ks : List ETree) (c fuel deep : Nat), D.BelowAll (k :: ks) →
    Links (V 8) (V 12) (tops (k :: ks) ++ [c]) → (∀ x ∈ tops (k :: ks), x ∈ els) → c ∉ tops ks → D.stepsAll (k :: ks) ≤ fuel →
    P.walkLoop fuel c k.top deep = .ok (preorderAll deep (k :: ks))
  | k, [], c, fuel, deep, hb, hL, hm, hc, hf => by
    unfold Doc.stepsAll at hf
    unfold Doc.BelowAll at hb
    obtain ⟨n, rfl⟩ : ∃ n, fuel = n + 1 := ⟨fuel - 1, by omega⟩
    have hk := hm k.top (by simp [tops])
    have hnx : V 8 k.top = c := by simp [tops, Links] at hL; exact hL.1
    unfold Pool.walkLoop
    rw [walk_spec s r k n deep hb.1 hk (by omega), Out.ok_bind, s.nx hk, Out.ok_bind, if_pos (by rw [hnx])]
    simp [preorderAll]
  | k, k' :: ks, c, fuel, deep, hb, hL, hm, hc, hf => by
    unfold Doc.stepsAll at hf
    unfold Doc.BelowAll at hb
    obtain ⟨n, rfl⟩ : ∃ n, fuel = n + 1 := ⟨fuel - 1, by omega⟩
    have hk := hm k.top (by simp [tops])
    have hk' := hm k'.top (by simp [tops])
    have hL' : Links (V 8) (V 12) (k.top :: k'.top :: (tops ks ++ [c])) := by simpa [tops] using hL
    simp only [Links] at hL'
    have hne : k'.top ≠ c := fun h' => hc (by simp [tops, h'])
    unfold Pool.walkLoop
    rw [walk_spec s r k n deep hb.1 hk (by omega), Out.ok_bind, s.nx hk, Out.ok_bind, hL'.1.1, if_neg (by omega), at_ok s hk', Out.ok_bind,
      walkLoop_spec s r k' ks c n deep hb.2 (by simpa [tops] using hL'.2) (fun x hx => hm x (by simp only [tops, List.map_cons] at hx ⊢; exact List.mem_cons_of_mem _ hx))
        (fun h' => hc (by simp only [tops, List.map_cons] at h' ⊢; exact List.mem_cons_of_mem _ h')) (by omega)]
    rw [show preorderAll deep (k :: k' :: ks) = k.preorder deep ++ preorderAll deep (k' :: ks) by rw [preorderAll]]
    rfl
end

/-- names of symbols -/
theorem nameOf_spec {P : Pool} {D : Doc} {els V fl} (h : Keeps P D els V fl) {b : Bool} (hr : D.ready b = true) (hs : D.syms b ≠ []) (id : Int) :
    P.nameOf b id = .ok (D.nameOf b id) := by
  have hi := h.rdy b hr hs
  unfold Pool.nameOf Doc.nameOf
  rw [if_neg hi]
  by_cases h0 : id < 0
  · rw [if_pos h0, if_pos h0]; rfl
  · rw [if_neg h0, if_neg h0]
    by_cases h1 : id < (D.syms b).length
    · have := symName_ok h.sees.ok h.sees.small (h.tabs b) hi (i := id.toNat) (by omega)
      rw [show ((id.toNat : Nat) : Int) = id by omega] at this
      rw [this, List.getElem?_eq_getElem (by omega)]; rfl
    · rw [(sym_out (h.tabs b) (by omega)).1, List.getElem?_eq_none (by omega)]; rfl

theorem nodeName_spec {P : Pool} {D : Doc} {els V fl} (k : Keeps P D els V fl) {e : Nat} (he : e ∈ els) (hr : D.ready (D.forest.tag e) = true) (hs : D.syms (D.forest.tag e) ≠ []) :
    P.nodeName e = .ok (D.nameOf (D.forest.tag e) (D.id e)) := by
  have hg := k.sees.range e he
  have hsz := k.sees.size
  have hlt := k.sees.lt he
  have hb : decide (fl e &&& 1 ≠ 0) = D.forest.tag e := by
    have := k.lists.bit e he
    cases hc : D.forest.tag e <;> simp_all
  unfold Pool.nodeName
  rw [if_neg (by omega), k.sees.flags he, Out.ok_bind, (k.elem e he).eId hsz.1, Out.ok_bind, hb, nameOf_spec k hr hs]

theorem elemType_spec {P : Pool} {D : Doc} {els V fl} (k : Keeps P D els V fl) {e : Nat} (he : e ∈ els) : P.typeOf e = .ok (D.type e) := by
  unfold Pool.typeOf
  rw [(k.elem e he).eType k.sees.size.1, Out.ok_bind, ofCode_code]; rfl

theorem slice_append (m : Mem) (a n k : Nat) : slice m a (n + k) = slice m a n ++ slice m (a + n) k := by
  unfold slice
  rw [List.range_add, List.map_append, List.map_map]
  congr 1
  apply List.map_congr_left
  intro i _
  simp [Nat.add_assoc]

theorem dataOf_spec {P : Pool} {D : Doc} {els V fl} (k : Keeps P D els V fl) {e : Nat} (he : e ∈ els) : ∃ l, P.dataOf e = D.val e ++ l := by
  have hv := k.elem e he
  have hsz := k.sees.size
  have := hv.hi
  obtain ⟨n, hn⟩ : ∃ n, P.fileSize - (e + 24) = (D.val e).length + n := ⟨P.fileSize - (e + 24) - (D.val e).length, by omega⟩
  refine ⟨slice P.mem (e + 24 + (D.val e).length) n, ?_⟩
  unfold Pool.dataOf Pool.behind
  rw [show ((e : Int) + 24).toNat = e + 24 by omega, hn, slice_append, hv.val]

theorem binParamsOf_spec {P : Pool} {D : Doc} {els V fl} (k : Keeps P D els V fl) (hr : D.ready false = true) (hs : D.syms false ≠ []) : ∀ l : List Nat, (∀ a ∈ l, a ∈ els) →
    P.binParamsOf (l.map Int.ofNat) = .ok (l.map fun a => (D.nameOf false (D.id a), D.id a, D.type a, P.dataOf a))
  | [], _ => rfl
  | a :: l, h => by
    have ha := h a (by simp)
    have ih := binParamsOf_spec k hr hs l (fun x hx => h x (List.mem_cons_of_mem _ hx))
    simp only [List.map_cons]
    unfold Pool.binParamsOf Pool.binParam
    show (do let id ← P.eId (a : Int); let name ← P.nameOf false id; let t ← P.typeOf (a : Int); return (name, id, t, P.dataOf (a : Int)) : Out _) >>= _ = _
    rw [(k.elem a ha).eId k.sees.size.1, Out.ok_bind, nameOf_spec k hr hs, Out.ok_bind, elemType_spec k ha, Out.ok_bind]
    simp only [Out.pure_eq, Out.ok_bind, ih]

end BX
