import Verif.Spec.JsonXb
import Verif.Lemmas.JsonTree
import Verif.Props.Room
/-
A JSON source in the creator: what is registered and what is written.
-/
namespace BX
open XBT Spec

theorem nameFixed_ok {d : JDoc} {x : Nat} {n : Option BStr} (h : d.getNodeName x = .ok n) : ∃ b, d.nameFixed x = .ok b := by
  unfold JDoc.getNodeName at h
  obtain ⟨t, h1, h⟩ := Out.bind_eq_ok h
  unfold JDoc.nameFixed
  rw [h1, Out.ok_bind]
  by_cases hp : t.parent < 0 ∨ t.parent ≥ d.toks.length
  · rw [if_pos hp]; exact ⟨_, rfl⟩
  · rw [if_neg hp] at h ⊢
    obtain ⟨p, h2, h⟩ := Out.bind_eq_ok h
    rw [h2, Out.ok_bind]
    by_cases ha : p.type = .array
    · rw [if_pos ha] at h ⊢
      by_cases hq : p.parent < 0 ∨ p.parent ≥ d.toks.length
      · rw [if_pos hq]; exact ⟨_, rfl⟩
      · rw [if_neg hq] at h ⊢
        obtain ⟨p2, h3, h⟩ := Out.bind_eq_ok h
        rw [h3, Out.ok_bind]; exact ⟨_, rfl⟩
    · rw [if_neg ha]; exact ⟨_, rfl⟩

theorem regOf_names {d : JDoc} {x : Nat} {n v : Option BStr} (h1 : d.getNodeName x = .ok n) (h2 : d.getNodeValue x = .ok v) :
    ∃ ts, d.regOf false x = .ok ts ∧ ts.map RegOp.name = n.toList := by
  obtain ⟨b, h3⟩ := nameFixed_ok h1
  unfold JDoc.regOf
  rw [h1, Out.ok_bind, h3, Out.ok_bind, h2, Out.ok_bind]
  cases n with
  | none => exact ⟨[], rfl, rfl⟩
  | some n =>
    cases v with
    | none => exact ⟨_, rfl, rfl⟩
    | some v => cases b <;> exact ⟨_, rfl, rfl⟩

theorem regsOf_append {d : JDoc} {o : Bool} : ∀ {l l' : List Nat} {a b : List RegOp}, d.regsOf o l = .ok a → d.regsOf o l' = .ok b → d.regsOf o (l ++ l') = .ok (a ++ b)
  | [], _, a, b, h1, h2 => by
    unfold JDoc.regsOf at h1
    cases h1
    exact h2
  | x :: l, l', a, b, h1, h2 => by
    unfold JDoc.regsOf at h1
    obtain ⟨p, k1, h1⟩ := Out.bind_eq_ok h1
    obtain ⟨q, k2, h1⟩ := Out.bind_eq_ok h1
    cases h1
    rw [List.cons_append, JDoc.regsOf, k1, Out.ok_bind, regsOf_append k2 h2, Out.ok_bind, Out.pure_eq, List.append_assoc]

mutual
theorem JV.regs {d : JDoc} : ∀ (v : JV) (name inner : Option BStr) (x deep fuel : Nat), v.Shown d True name inner x → 2 * v.count ≤ fuel →
    ∃ l ts, d.walk fuel x deep = .ok l ∧ d.regsOf false (l.map (·.1)) = .ok ts ∧ ts.map RegOp.name = v.names name inner
  | .str s, name, inner, x, deep, 0, h, hf => by simp only [JV.count] at hf; omega
  | .prim s, name, inner, x, deep, 0, h, hf => by simp only [JV.count] at hf; omega
  | .arr _ es, name, inner, x, deep, 0, h, hf => by simp only [JV.count] at hf; omega
  | .obj _ ms, name, inner, x, deep, 0, h, hf => by simp only [JV.count] at hf; omega
  | .str s, name, inner, x, deep, fuel + 1, h, hf => by
    unfold JV.Shown at h
    obtain ⟨h1, h2, h3⟩ := h
    obtain ⟨ts, k1, k2⟩ := regOf_names (h1 trivial) h2
    unfold JV.count at hf
    obtain ⟨f, rfl⟩ : ∃ f, fuel = f + 1 := ⟨fuel - 1, by omega⟩
    refine ⟨[(x, deep)], ts, ?_, ?_, by rw [k2, JV.names]⟩
    · unfold JDoc.walk
      rw [h3, Out.ok_bind, JDoc.walkAll]; rfl
    · simp only [List.map_cons, List.map_nil, JDoc.regsOf, k1, Out.ok_bind, Out.pure_eq, List.append_nil]
  | .prim s, name, inner, x, deep, fuel + 1, h, hf => by
    unfold JV.Shown at h
    obtain ⟨h1, h2, h3⟩ := h
    obtain ⟨ts, k1, k2⟩ := regOf_names (h1 trivial) h2
    unfold JV.count at hf
    obtain ⟨f, rfl⟩ : ∃ f, fuel = f + 1 := ⟨fuel - 1, by omega⟩
    refine ⟨[(x, deep)], ts, ?_, ?_, by rw [k2, JV.names]⟩
    · unfold JDoc.walk
      rw [h3, Out.ok_bind, JDoc.walkAll]; rfl
    · simp only [List.map_cons, List.map_nil, JDoc.regsOf, k1, Out.ok_bind, Out.pure_eq, List.append_nil]
  | .arr _ es, name, inner, x, deep, fuel + 1, h, hf => by
    unfold JV.Shown at h
    obtain ⟨h1, h2, hs, h3, -, h4⟩ := h
    obtain ⟨ts, k1, k2⟩ := regOf_names (h1 trivial) h2
    unfold JV.count at hf
    obtain ⟨l, us, g1, g2, g3⟩ := JEs.regs es inner hs (deep + 1) fuel h4 (by omega)
    refine ⟨(x, deep) :: l, ts ++ us, ?_, ?_, by rw [List.map_append, k2, g3, JV.names]⟩
    · unfold JDoc.walk
      rw [h3, Out.ok_bind, g1]; rfl
    · simp only [List.map_cons, JDoc.regsOf, k1, g2, Out.ok_bind, Out.pure_eq]
  | .obj _ ms, name, inner, x, deep, fuel + 1, h, hf => by
    unfold JV.Shown at h
    obtain ⟨h1, h2, hs, h3, -, h4⟩ := h
    obtain ⟨ts, k1, k2⟩ := regOf_names (h1 trivial) h2
    unfold JV.count at hf
    obtain ⟨l, us, g1, g2, g3⟩ := JMs.regs ms hs (deep + 1) fuel h4 (by omega)
    refine ⟨(x, deep) :: l, ts ++ us, ?_, ?_, by rw [List.map_append, k2, g3, JV.names]⟩
    · unfold JDoc.walk
      rw [h3, Out.ok_bind, g1]; rfl
    · simp only [List.map_cons, JDoc.regsOf, k1, g2, Out.ok_bind, Out.pure_eq]
theorem JEs.regs {d : JDoc} : ∀ (es : JEs) (inner : Option BStr) (hs : List Nat) (deep fuel : Nat), es.Shown d True inner hs → 2 * es.count + 1 ≤ fuel →
    ∃ l ts, d.walkAll fuel hs deep = .ok l ∧ d.regsOf false (l.map (·.1)) = .ok ts ∧ ts.map RegOp.name = es.names inner
  | _, inner, hs, deep, 0, h, hf => by omega
  | .nil, inner, hs, deep, fuel + 1, h, hf => by
    unfold JEs.Shown at h
    subst h
    exact ⟨[], [], by rw [JDoc.walkAll]; rfl, rfl, by rw [JEs.names]; rfl⟩
  | .cons _ v _ rest, inner, hs, deep, fuel + 1, h, hf => by
    unfold JEs.Shown at h
    obtain ⟨x, hs', rfl, h1, h2⟩ := h
    unfold JEs.count at hf
    have hp := JV.count_pos v
    obtain ⟨l, ts, g1, g2, g3⟩ := JV.regs v _ _ x deep fuel h1 (by omega)
    obtain ⟨l', us, g1', g2', g3'⟩ := JEs.regs rest inner hs' deep fuel h2 (by omega)
    refine ⟨l ++ l', ts ++ us, ?_, ?_, by rw [List.map_append, g3, g3', JEs.names]⟩
    · rw [JDoc.walkAll, g1, Out.ok_bind, g1']; rfl
    · rw [List.map_append]; exact regsOf_append g2 g2'
theorem JMs.regs {d : JDoc} : ∀ (ms : JMs) (hs : List Nat) (deep fuel : Nat), ms.Shown d True hs → 2 * ms.count + 1 ≤ fuel →
    ∃ l ts, d.walkAll fuel hs deep = .ok l ∧ d.regsOf false (l.map (·.1)) = .ok ts ∧ ts.map RegOp.name = ms.names
  | _, hs, deep, 0, h, hf => by omega
  | .nil, hs, deep, fuel + 1, h, hf => by
    unfold JMs.Shown at h
    subst h
    exact ⟨[], [], by rw [JDoc.walkAll]; rfl, rfl, by rw [JMs.names]; rfl⟩
  | .cons _ k _ _ v _ rest, hs, deep, fuel + 1, h, hf => by
    unfold JMs.Shown at h
    obtain ⟨x, hs', rfl, h1, h2⟩ := h
    unfold JMs.count at hf
    have hp := JV.count_pos v
    obtain ⟨l, ts, g1, g2, g3⟩ := JV.regs v _ _ x deep fuel h1 (by omega)
    obtain ⟨l', us, g1', g2', g3'⟩ := JMs.regs rest hs' deep fuel h2 (by omega)
    refine ⟨l ++ l', ts ++ us, ?_, ?_, by rw [List.map_append, g3, g3', JMs.names]⟩
    · rw [JDoc.walkAll, g1, Out.ok_bind, g1']; rfl
    · rw [List.map_append]; exact regsOf_append g2 g2'
end

/-! ### writing -/

theorem find_nameRead {c : Ctx} (hN : c.tags.find (some (b8 "NULL")) = -1) (n : Option BStr) : c.tags.find (some (nameRead n)) = c.tags.find n := by
  cases n with
  | none => exact hN
  | some n => rfl

theorem JEs.elems_length {d : JDoc} : ∀ (es : JEs) (inner : Option BStr) (hs : List Nat), es.Shown d True inner hs → (es.elems inner).length = hs.length
  | .nil, _, hs, h => by unfold JEs.Shown at h; subst h; rfl
  | .cons _ v _ rest, inner, hs, h => by
    unfold JEs.Shown at h
    obtain ⟨x, hs', rfl, -, h2⟩ := h
    rw [JEs.elems, List.length_cons, List.length_cons, JEs.elems_length rest inner hs' h2]

theorem JMs.elems_length {d : JDoc} : ∀ (ms : JMs) (hs : List Nat), ms.Shown d True hs → ms.elems.length = hs.length
  | .nil, hs, h => by unfold JMs.Shown at h; subst h; rfl
  | .cons _ k _ _ v _ rest, hs, h => by
    unfold JMs.Shown at h
    obtain ⟨x, hs', rfl, -, h2⟩ := h
    rw [JMs.elems, List.length_cons, List.length_cons, JMs.elems_length rest hs' h2]

theorem write_one {d : JDoc} {c : Ctx} {fuel e : Nat} {n v : Option BStr} {hs : List Nat} {name : BStr} {es : List Elem} (h1 : d.getNodeName e = .ok n) (h2 : d.getNodeValue e = .ok v)
    (h3 : d.children e = .ok hs) (hn : c.tags.find (some name) = c.tags.find n) (hl : es.length = hs.length)
    (hw : ∀ x ca m wp, d.writeChildren c x fuel hs ca m wp = writeChildren c x es ca m wp) (m : Mem) (wp : Nat) :
    d.writeNode c (fuel + 1) e m wp = writeNode c (.mk name (jsonVal v) [] es) m wp := by
  unfold JDoc.writeNode writeNode
  simp only [h1, h2, h3, Out.ok_bind, hn, hl, hw, List.length_nil, Nat.mul_zero, Nat.add_zero, writeParams]
  by_cases hb : hs.length > 2147483647
  · rw [if_pos hb, if_pos (Or.inr hb)]
  · rw [if_neg hb, if_neg (by omega)]
    rfl

mutual
theorem JV.write {d : JDoc} {c : Ctx} (hN : c.tags.find (some (b8 "NULL")) = -1) : ∀ (v : JV) (name inner : Option BStr) (x fuel : Nat), v.Shown d True name inner x → 2 * v.count ≤ fuel →
    ∀ m wp, d.writeNode c fuel x m wp = writeNode c (v.elem name inner) m wp
  | .str s, name, inner, x, 0, h, hf => by simp only [JV.count] at hf; omega
  | .prim s, name, inner, x, 0, h, hf => by simp only [JV.count] at hf; omega
  | .arr _ es, name, inner, x, 0, h, hf => by simp only [JV.count] at hf; omega
  | .obj _ ms, name, inner, x, 0, h, hf => by simp only [JV.count] at hf; omega
  | .str s, name, inner, x, fuel + 1, h, hf => by
    unfold JV.Shown at h
    obtain ⟨h1, h2, h3⟩ := h
    unfold JV.count at hf
    obtain ⟨f, rfl⟩ : ∃ f, fuel = f + 1 := ⟨fuel - 1, by omega⟩
    unfold JV.elem
    exact write_one (h1 trivial) h2 h3 (find_nameRead hN name) rfl (fun x ca m wp => by rw [JDoc.writeChildren, writeChildren])
  | .prim s, name, inner, x, fuel + 1, h, hf => by
    unfold JV.Shown at h
    obtain ⟨h1, h2, h3⟩ := h
    unfold JV.count at hf
    obtain ⟨f, rfl⟩ : ∃ f, fuel = f + 1 := ⟨fuel - 1, by omega⟩
    unfold JV.elem
    exact write_one (h1 trivial) h2 h3 (find_nameRead hN name) rfl (fun x ca m wp => by rw [JDoc.writeChildren, writeChildren])
  | .arr _ es, name, inner, x, fuel + 1, h, hf => by
    unfold JV.Shown at h
    obtain ⟨h1, h2, hs, h3, -, h4⟩ := h
    unfold JV.count at hf
    unfold JV.elem
    exact write_one (h1 trivial) h2 h3 (find_nameRead hN name) (JEs.elems_length es inner hs h4) (fun x ca m wp => JEs.write hN es inner hs fuel h4 (by omega) x ca m wp)
  | .obj _ ms, name, inner, x, fuel + 1, h, hf => by
    unfold JV.Shown at h
    obtain ⟨h1, h2, hs, h3, -, h4⟩ := h
    unfold JV.count at hf
    unfold JV.elem
    exact write_one (h1 trivial) h2 h3 (find_nameRead hN name) (JMs.elems_length ms hs h4) (fun x ca m wp => JMs.write hN ms hs fuel h4 (by omega) x ca m wp)
theorem JEs.write {d : JDoc} {c : Ctx} (hN : c.tags.find (some (b8 "NULL")) = -1) : ∀ (es : JEs) (inner : Option BStr) (hs : List Nat) (fuel : Nat), es.Shown d True inner hs → 2 * es.count + 1 ≤ fuel →
    ∀ x ca m wp, d.writeChildren c x fuel hs ca m wp = writeChildren c x (es.elems inner) ca m wp
  | _, inner, hs, 0, h, hf => by omega
  | .nil, inner, hs, fuel + 1, h, hf => by
    unfold JEs.Shown at h
    subst h
    intro x ca m wp
    rw [JDoc.writeChildren, JEs.elems, writeChildren]
  | .cons _ v _ rest, inner, hs, fuel + 1, h, hf => by
    unfold JEs.Shown at h
    obtain ⟨y, hs', rfl, h1, h2⟩ := h
    unfold JEs.count at hf
    have hp := JV.count_pos v
    intro x ca m wp
    rw [JDoc.writeChildren, JEs.elems, writeChildren]
    simp only [JV.write hN v _ _ y fuel h1 (by omega), JEs.write hN rest inner hs' fuel h2 (by omega)]
theorem JMs.write {d : JDoc} {c : Ctx} (hN : c.tags.find (some (b8 "NULL")) = -1) : ∀ (ms : JMs) (hs : List Nat) (fuel : Nat), ms.Shown d True hs → 2 * ms.count + 1 ≤ fuel →
    ∀ x ca m wp, d.writeChildren c x fuel hs ca m wp = writeChildren c x ms.elems ca m wp
  | _, hs, 0, h, hf => by omega
  | .nil, hs, fuel + 1, h, hf => by
    unfold JMs.Shown at h
    subst h
    intro x ca m wp
    rw [JDoc.writeChildren, JMs.elems, writeChildren]
  | .cons _ k _ _ v _ rest, hs, fuel + 1, h, hf => by
    unfold JMs.Shown at h
    obtain ⟨y, hs', rfl, h1, h2⟩ := h
    unfold JMs.count at hf
    have hp := JV.count_pos v
    intro x ca m wp
    rw [JDoc.writeChildren, JMs.elems, writeChildren]
    simp only [JV.write hN v _ _ y fuel h1 (by omega), JMs.write hN rest hs' fuel h2 (by omega)]
end

theorem fillData_json {d : JDoc} {c : Ctx} {fuel : Nat} {e : Elem} (h : ∀ m wp, d.writeNode c fuel JDoc.root m wp = writeNode c e m wp) (filename : BStr) (mtime : Int) (m : Mem) :
    d.fillData c fuel filename mtime m = fillData c filename mtime e m := by
  have hp : ∀ m wp, d.writePayload c fuel m wp = writePayload c e m wp := by
    intro m wp
    unfold JDoc.writePayload writePayload
    simp only [h]
  unfold JDoc.fillData fillData
  simp only [hp]

/-! ### the tree of a document -/

mutual
theorem JV.namesIn {P Q : BStr → Prop} (hN : P (b8 "NULL")) : ∀ (v : JV) (name inner : Option BStr), (∀ s ∈ v.names name inner, P s) → NamesIn P Q (v.elem name inner)
  | .str s, name, inner, h => by
    unfold JV.elem NamesIn NamesInAll
    refine ⟨?_, by simp, trivial⟩
    cases name with
    | none => exact hN
    | some n => exact h n (by simp [JV.names])
  | .prim s, name, inner, h => by
    unfold JV.elem NamesIn NamesInAll
    refine ⟨?_, by simp, trivial⟩
    cases name with
    | none => exact hN
    | some n => exact h n (by simp [JV.names])
  | .arr _ es, name, inner, h => by
    unfold JV.names at h
    unfold JV.elem NamesIn
    refine ⟨?_, by simp, JEs.namesIn hN es inner fun s hs => h s (List.mem_append_right _ hs)⟩
    cases name with
    | none => exact hN
    | some n => exact h n (by simp)
  | .obj _ ms, name, inner, h => by
    unfold JV.names at h
    unfold JV.elem NamesIn
    refine ⟨?_, by simp, JMs.namesIn hN ms fun s hs => h s (List.mem_append_right _ hs)⟩
    cases name with
    | none => exact hN
    | some n => exact h n (by simp)
theorem JEs.namesIn {P Q : BStr → Prop} (hN : P (b8 "NULL")) : ∀ (es : JEs) (inner : Option BStr), (∀ s ∈ es.names inner, P s) → NamesInAll P Q (es.elems inner)
  | .nil, _, _ => by unfold JEs.elems NamesInAll; trivial
  | .cons _ v _ rest, inner, h => by
    unfold JEs.names at h
    unfold JEs.elems NamesInAll
    exact ⟨JV.namesIn hN v _ _ fun s hs => h s (List.mem_append_left _ hs), JEs.namesIn hN rest inner fun s hs => h s (List.mem_append_right _ hs)⟩
theorem JMs.namesIn {P Q : BStr → Prop} (hN : P (b8 "NULL")) : ∀ (ms : JMs), (∀ s ∈ ms.names, P s) → NamesInAll P Q ms.elems
  | .nil, _ => by unfold JMs.elems NamesInAll; trivial
  | .cons _ k _ _ v _ rest, h => by
    unfold JMs.names at h
    unfold JMs.elems NamesInAll
    exact ⟨JV.namesIn hN v _ _ fun s hs => h s (List.mem_append_left _ hs), JMs.namesIn hN rest fun s hs => h s (List.mem_append_right _ hs)⟩
end

mutual
theorem JV.treeOk {pt : BStr → XBT} : ∀ (v : JV) (name inner : Option BStr), (∀ s ∈ v.leaves, NodeOk (.text (toC s))) → TreeOk pt (v.elem name inner)
  | .str s, _, _, h => by unfold JV.elem TreeOk TreeOkAll; exact ⟨h s (by simp [JV.leaves]), by simp, trivial⟩
  | .prim s, _, _, h => by unfold JV.elem TreeOk TreeOkAll; exact ⟨h s (by simp [JV.leaves]), by simp, trivial⟩
  | .arr _ es, _, inner, h => by unfold JV.leaves at h; unfold JV.elem TreeOk; exact ⟨by simp [NodeOk], by simp, JEs.treeOk es inner h⟩
  | .obj _ ms, _, _, h => by unfold JV.leaves at h; unfold JV.elem TreeOk; exact ⟨by simp [NodeOk], by simp, JMs.treeOk ms h⟩
theorem JEs.treeOk {pt : BStr → XBT} : ∀ (es : JEs) (inner : Option BStr), (∀ s ∈ es.leaves, NodeOk (.text (toC s))) → TreeOkAll pt (es.elems inner)
  | .nil, _, _ => by unfold JEs.elems TreeOkAll; trivial
  | .cons _ v _ rest, inner, h => by
    unfold JEs.leaves at h
    unfold JEs.elems TreeOkAll
    exact ⟨JV.treeOk v _ _ fun s hs => h s (List.mem_append_left _ hs), JEs.treeOk rest inner fun s hs => h s (List.mem_append_right _ hs)⟩
theorem JMs.treeOk {pt : BStr → XBT} : ∀ (ms : JMs), (∀ s ∈ ms.leaves, NodeOk (.text (toC s))) → TreeOkAll pt ms.elems
  | .nil, _ => by unfold JMs.elems TreeOkAll; trivial
  | .cons _ k _ _ v _ rest, h => by
    unfold JMs.leaves at h
    unfold JMs.elems TreeOkAll
    exact ⟨JV.treeOk v _ _ fun s hs => h s (List.mem_append_left _ hs), JMs.treeOk rest fun s hs => h s (List.mem_append_right _ hs)⟩
end

mutual
theorem JV.textDoc {flt : CStr → List UInt8} {pt : BStr → XBT} : ∀ (v : JV) (name inner : Option BStr), (∀ s ∈ v.leaves, Convertible flt (.text (toC s))) → need (v.elem name inner) < 2147483648 →
    TextDoc flt pt (v.elem name inner)
  | .str s, _, _, h, hb => by unfold JV.elem TextDoc TextDocAll; exact ⟨by simp, by simp, h s (by simp [JV.leaves]), by simp, trivial⟩
  | .prim s, _, _, h, hb => by unfold JV.elem TextDoc TextDocAll; exact ⟨by simp, by simp, h s (by simp [JV.leaves]), by simp, trivial⟩
  | .arr _ es, _, inner, h, hb => by
    unfold JV.leaves at h
    unfold JV.elem need at hb
    unfold JV.elem TextDoc
    exact ⟨by simp, by omega, by simp [Convertible], by simp, JEs.textDoc es inner h (by omega)⟩
  | .obj _ ms, _, _, h, hb => by
    unfold JV.leaves at h
    unfold JV.elem need at hb
    unfold JV.elem TextDoc
    exact ⟨by simp, by omega, by simp [Convertible], by simp, JMs.textDoc ms h (by omega)⟩
theorem JEs.textDoc {flt : CStr → List UInt8} {pt : BStr → XBT} : ∀ (es : JEs) (inner : Option BStr), (∀ s ∈ es.leaves, Convertible flt (.text (toC s))) → needAll (es.elems inner) < 2147483648 →
    TextDocAll flt pt (es.elems inner)
  | .nil, _, _, _ => by unfold JEs.elems TextDocAll; trivial
  | .cons _ v _ rest, inner, h, hb => by
    unfold JEs.leaves at h
    unfold JEs.elems needAll at hb
    unfold JEs.elems TextDocAll
    exact ⟨JV.textDoc v _ _ (fun s hs => h s (List.mem_append_left _ hs)) (by omega), JEs.textDoc rest inner (fun s hs => h s (List.mem_append_right _ hs)) (by omega)⟩
theorem JMs.textDoc {flt : CStr → List UInt8} {pt : BStr → XBT} : ∀ (ms : JMs), (∀ s ∈ ms.leaves, Convertible flt (.text (toC s))) → needAll ms.elems < 2147483648 → TextDocAll flt pt ms.elems
  | .nil, _, _ => by unfold JMs.elems TextDocAll; trivial
  | .cons _ k _ _ v _ rest, h, hb => by
    unfold JMs.leaves at h
    unfold JMs.elems needAll at hb
    unfold JMs.elems TextDocAll
    exact ⟨JV.textDoc v _ _ (fun s hs => h s (List.mem_append_left _ hs)) (by omega), JMs.textDoc rest (fun s hs => h s (List.mem_append_right _ hs)) (by omega)⟩
end

/-! ### the texts of a document -/

theorem StrText.noNul {s : BStr} (h : StrText s) : NoNul s := by
  induction h with
  | nil => intro c hc; cases hc
  | plain c s h0 hq hb h ih => intro b hb; cases hb with
    | head => exact h0
    | tail _ hb => exact ih b hb
  | esc c s hc h ih =>
    intro b hb
    simp only [List.mem_cons] at hb
    rcases hb with rfl | rfl | hb
    · decide
    · intro h0; subst h0; revert hc; decide
    · exact ih b hb
  | uni a b c d s ha hb hc hd h ih =>
    have dig : ∀ {c : UInt8}, JHexDigit c → c ≠ 0 := by
      intro c hc h0
      subst h0
      revert hc
      unfold JHexDigit
      decide
    intro x hx
    simp only [List.mem_cons] at hx
    rcases hx with rfl | rfl | rfl | rfl | rfl | rfl | hx
    · decide
    · decide
    · exact dig ha
    · exact dig hb
    · exact dig hc
    · exact dig hd
    · exact ih x hx

theorem PrimText.noNul {s : BStr} (h : PrimText s) : NoNul s := by
  intro c hc h0
  have := (h.2.1 c hc).1
  rw [h0] at this
  revert this
  decide

mutual
theorem JV.leaves_noNul : ∀ (v : JV), v.Ok → ∀ s ∈ v.leaves, NoNul s
  | .str s, h, t, ht => by
    rw [JV.leaves, List.mem_singleton] at ht
    subst ht
    exact StrText.noNul h
  | .prim s, h, t, ht => by
    rw [JV.leaves, List.mem_singleton] at ht
    subst ht
    exact PrimText.noNul h
  | .arr _ es, h, t, ht => by unfold JV.leaves at ht; unfold JV.Ok at h; exact JEs.leaves_noNul es h.2 t ht
  | .obj _ ms, h, t, ht => by unfold JV.leaves at ht; unfold JV.Ok at h; exact JMs.leaves_noNul ms h.2 t ht
theorem JEs.leaves_noNul : ∀ (es : JEs), es.Ok → ∀ s ∈ es.leaves, NoNul s
  | .nil, _, t, ht => by rw [JEs.leaves] at ht; cases ht
  | .cons _ v _ rest, h, t, ht => by
    unfold JEs.Ok at h
    unfold JEs.leaves at ht
    rcases List.mem_append.1 ht with ht | ht
    · exact JV.leaves_noNul v h.2.1 t ht
    · exact JEs.leaves_noNul rest h.2.2.2 t ht
theorem JMs.leaves_noNul : ∀ (ms : JMs), ms.Ok → ∀ s ∈ ms.leaves, NoNul s
  | .nil, _, t, ht => by rw [JMs.leaves] at ht; cases ht
  | .cons _ k _ _ v _ rest, h, t, ht => by
    unfold JMs.Ok at h
    unfold JMs.leaves at ht
    rcases List.mem_append.1 ht with ht | ht
    · exact JV.leaves_noNul v h.2.2.2.2.1 t ht
    · exact JMs.leaves_noNul rest h.2.2.2.2.2.2 t ht
end

theorem singular_noNul {s : BStr} (h : NoNul s) : NoNul (singular s) := by
  unfold singular
  split
  · intro c hc; exact h c (List.dropLast_subset _ hc)
  · split
    · intro c hc; exact h c (List.take_subset _ _ hc)
    · intro c hc
      rcases List.mem_append.1 hc with hc | hc
      · exact h c hc
      · intro h0; subst h0; revert hc; decide

mutual
theorem JV.names_noNul : ∀ (v : JV) (name inner : Option BStr), v.Ok → (∀ s, name = some s → NoNul s) → (∀ s, inner = some s → NoNul s) → ∀ s ∈ v.names name inner, NoNul s
  | .str _, name, _, _, h1, _, t, ht => by unfold JV.names at ht; exact h1 t (Option.mem_toList.1 ht)
  | .prim _, name, _, _, h1, _, t, ht => by unfold JV.names at ht; exact h1 t (Option.mem_toList.1 ht)
  | .arr _ es, name, inner, h, h1, h2, t, ht => by
    unfold JV.names at ht
    unfold JV.Ok at h
    rcases List.mem_append.1 ht with ht | ht
    · exact h1 t (Option.mem_toList.1 ht)
    · exact JEs.names_noNul es inner h.2 h2 t ht
  | .obj _ ms, name, inner, h, h1, h2, t, ht => by
    unfold JV.names at ht
    unfold JV.Ok at h
    rcases List.mem_append.1 ht with ht | ht
    · exact h1 t (Option.mem_toList.1 ht)
    · exact JMs.names_noNul ms h.2 t ht
theorem JEs.names_noNul : ∀ (es : JEs) (inner : Option BStr), es.Ok → (∀ s, inner = some s → NoNul s) → ∀ s ∈ es.names inner, NoNul s
  | .nil, _, _, _, t, ht => by rw [JEs.names] at ht; cases ht
  | .cons _ v _ rest, inner, h, h2, t, ht => by
    unfold JEs.Ok at h
    unfold JEs.names at ht
    rcases List.mem_append.1 ht with ht | ht
    · exact JV.names_noNul v inner _ h.2.1 h2 (by rintro s ⟨⟩; unfold NoNul; decide) t ht
    · exact JEs.names_noNul rest inner h.2.2.2 h2 t ht
theorem JMs.names_noNul : ∀ (ms : JMs), ms.Ok → ∀ s ∈ ms.names, NoNul s
  | .nil, _, t, ht => by rw [JMs.names] at ht; cases ht
  | .cons _ k _ _ v _ rest, h, t, ht => by
    unfold JMs.Ok at h
    unfold JMs.names at ht
    rcases List.mem_append.1 ht with ht | ht
    · have hk := StrText.noNul h.2.1
      exact JV.names_noNul v _ _ h.2.2.2.2.1 (by rintro s ⟨⟩; exact hk) (by rintro s ⟨⟩; exact singular_noNul hk) t ht
    · exact JMs.names_noNul rest h.2.2.2.2.2.2 t ht
end

theorem cText_toC {s : BStr} (h : NoNul s) : CText (toC s) := by
  intro c hc
  obtain ⟨b, hb, rfl⟩ := List.mem_map.1 hc
  have h1 : ∀ n < 256, (Char.ofNat n).toNat = n := by decide +kernel
  have h2 := b.toNat_lt
  rw [h1 _ h2]
  refine ⟨?_, h2⟩
  rcases Nat.eq_zero_or_pos b.toNat with h0 | h0
  · exact absurd (UInt8.toNat_inj.1 h0) (h b hb)
  · exact h0

end BX
