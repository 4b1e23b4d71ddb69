import Verif.Props.Store
/-
A longer file answers everything the shorter one answered: lemmas for appending to a file.
-/
namespace BX
open XBT Spec

/-- `h` begins with the bytes of `f` -/
structure Ext (f h : Img) : Prop where
  size : f.size ≤ h.size
  mem : ∀ a, a < f.size → h.mem a = f.mem a

theorem Ext.refl (f : Img) : Ext f f := ⟨Nat.le_refl _, fun _ _ => rfl⟩
theorem Ext.trans {f g h : Img} (a : Ext f g) (b : Ext g h) : Ext f h :=
  ⟨Nat.le_trans a.size b.size, fun i hi => by rw [b.mem i (Nat.lt_of_lt_of_le hi a.size), a.mem i hi]⟩

/-- everything `x` answers, `y` answers too -/
def Sub {α : Type} (x y : Out α) : Prop := ∀ v, x = .ok v → y = .ok v

theorem Sub.refl {α : Type} (x : Out α) : Sub x x := fun _ h => h
theorem Sub.bind {α β : Type} {x y : Out α} {g g' : α → Out β} (h : Sub x y) (hg : ∀ a, x = .ok a → Sub (g a) (g' a)) : Sub (x >>= g) (y >>= g') := by
  intro v hv
  obtain ⟨a, h1, h2⟩ := Out.bind_eq_ok hv
  rw [h a h1]
  exact hg a h1 v h2
theorem Sub.ite {α : Type} {p : Prop} [Decidable p] {x y x' y' : Out α} (h : Sub x x') (h' : Sub y y') : Sub (if p then x else y) (if p then x' else y') := by
  split
  · exact h
  · exact h'

theorem takeWhile_append_stop {α : Type} (p : α → Bool) : ∀ (l m : List α), (l.takeWhile p).length < l.length → (l ++ m).takeWhile p = l.takeWhile p
  | [], _, h => by simp at h
  | a :: l, m, h => by
    simp only [List.takeWhile_cons, List.cons_append] at h ⊢
    split
    · next ha => rw [if_pos ha] at h; rw [takeWhile_append_stop p l m (by simpa using h)]
    · rfl

section
variable {f h : Img} (x : Ext f h)
include x

theorem Ext.rd (a : Int) (n : Nat) : Sub (f.rd a n) (h.rd a n) := by
  intro v hv
  unfold Img.rd at hv ⊢
  have := x.size
  split at hv
  · rw [if_pos (by omega)]
    cases hv
    rw [slice_congr (fun i i1 i2 => x.mem i (by omega))]
  · cases hv
theorem Ext.u8 (a : Int) : Sub (f.u8 a) (h.u8 a) := (x.rd a 1).bind fun _ _ => Sub.refl _
theorem Ext.i16 (a : Int) : Sub (f.i16 a) (h.i16 a) := (x.rd a 2).bind fun _ _ => Sub.refl _
theorem Ext.i32 (a : Int) : Sub (f.i32 a) (h.i32 a) := (x.rd a 4).bind fun _ _ => Sub.refl _

theorem Ext.tail (a : Nat) (ha : a ≤ f.size) : slice h.mem a (h.size - a) = slice f.mem a (f.size - a) ++ slice h.mem f.size (h.size - f.size) := by
  have := x.size
  rw [show h.size - a = (f.size - a) + (h.size - f.size) by omega, slice_add, slice_congr (m := f.mem) (fun i i1 i2 => x.mem i (by omega)),
    show a + (f.size - a) = f.size by omega]

theorem Ext.str (a : Int) : Sub (f.str a) (h.str a) := by
  intro v hv
  unfold Img.str at hv ⊢
  split at hv
  · next ha =>
    simp only at hv ⊢
    have hle := (List.takeWhile_sublist (fun b : UInt8 => decide (b ≠ 0)) (l := slice f.mem a.toNat (f.size - a.toNat))).length_le
    split at hv
    · cases hv
    · next hn =>
      have hlt : a.toNat < f.size := by
        apply Nat.lt_of_not_le
        intro hge
        rw [show f.size - a.toNat = 0 by omega] at hn
        exact hn rfl
      have e := x.tail a.toNat (by omega)
      rw [if_pos ha, e, takeWhile_append_stop _ _ _ (by omega), List.length_append, if_neg (by omega)]
      exact hv
  · cases hv

theorem Ext.strnlen (a : Int) (max : Nat) : Sub (f.strnlen a max) (h.strnlen a max) := by
  intro v hv
  unfold Img.strnlen at hv ⊢
  split at hv
  · next ha =>
    rw [if_pos ha]
    simp only at hv ⊢
    by_cases hge : f.size ≤ a.toNat
    · rw [show f.size - a.toNat = 0 by omega] at hv
      have hm : max = 0 := by
        cases max with
        | zero => rfl
        | succ n => simp [slice] at hv
      subst hm
      simpa [slice] using hv
    · have e := x.tail a.toNat (by omega)
      rw [e, List.take_append]
      generalize slice f.mem a.toNat (f.size - a.toNat) = l at hv ⊢
      generalize slice h.mem f.size (h.size - f.size) = l' at hv ⊢
      split at hv
      · next hlt =>
        rw [takeWhile_append_stop _ _ _ hlt, if_pos (by rw [List.length_append]; omega)]
        exact hv
      · split at hv
        · next hmax =>
          have : l'.take (max - l.length) = [] := by
            rw [List.length_take] at hmax
            rw [show max - l.length = 0 by omega, List.take_zero]
          rw [this, List.append_nil, if_neg (by assumption), if_pos hmax]
          exact hv
        · cases hv
  · cases hv

theorem Ext.name (a : Int) : Sub (f.name a) (h.name a) := x.i16 a
theorem Ext.paramcount (a : Int) : Sub (f.paramcount a) (h.paramcount a) := x.i16 _
theorem Ext.childcount (a : Int) : Sub (f.childcount a) (h.childcount a) := x.i32 _
theorem Ext.length (a : Int) : Sub (f.length a) (h.length a) := x.i32 _
theorem Ext.getParamByIndex (a i : Int) : Sub (f.getParamByIndex a i) (h.getParamByIndex a i) :=
  Sub.ite (Sub.refl _) ((x.paramcount a).bind fun _ _ => Sub.refl _)
theorem Ext.findParam (code : Int) : ∀ (n : Nat) (p : Int), Sub (f.findParam code n p) (h.findParam code n p)
  | 0, _ => Sub.refl _
  | n+1, p => by unfold Img.findParam; exact (x.i16 p).bind fun _ _ => Sub.ite (Sub.refl _) (Ext.findParam code n _)
theorem Ext.getParamByName (a code : Int) : Sub (f.getParamByName a code) (h.getParamByName a code) :=
  (x.paramcount a).bind fun _ _ => x.findParam code _ _
theorem Ext.childrenAt (a : Int) : Sub (f.childrenAt a) (h.childrenAt a) := (x.paramcount a).bind fun _ _ => Sub.refl _
theorem Ext.getChildByIndex (a i : Int) : Sub (f.getChildByIndex a i) (h.getChildByIndex a i) :=
  (x.childcount a).bind fun _ _ => Sub.ite (Sub.refl _) ((x.childrenAt a).bind fun _ _ => (x.i32 _).bind fun _ _ => Sub.refl _)
theorem Ext.findChild (a code : Int) : ∀ (n : Nat) (p : Int), Sub (f.findChild a code n p) (h.findChild a code n p)
  | 0, _ => Sub.refl _
  | n+1, p => by unfold Img.findChild; exact (x.i32 p).bind fun _ _ => (x.name _).bind fun _ _ => Sub.ite (Sub.refl _) (Ext.findChild a code n _)
theorem Ext.getChildByName (a code : Int) : Sub (f.getChildByName a code) (h.getChildByName a code) :=
  (x.childcount a).bind fun _ _ => Sub.ite (Sub.refl _) ((x.childrenAt a).bind fun _ _ => x.findChild a code _ _)
theorem Ext.valueAt (a : Int) : Sub (f.valueAt a) (h.valueAt a) := (x.paramcount a).bind fun _ _ => (x.childcount a).bind fun _ _ => Sub.refl _
theorem Ext.content (t : XBT) (p : Int) : Sub (f.content t p) (h.content t p) := by
  unfold Img.content
  refine Sub.ite ((x.rd _ _).bind fun _ _ => Sub.refl _) (Sub.ite ((x.rd _ _).bind fun _ _ => Sub.refl _) (Sub.ite ((x.str _).bind fun _ _ => Sub.refl _) (Sub.ite ?_ (Sub.ite (Sub.refl _) ((x.rd _ _).bind fun _ _ => Sub.refl _)))))
  exact (x.i32 p).bind fun _ _ => Sub.ite (Sub.refl _) ((x.rd _ _).bind fun _ _ => Sub.refl _)
theorem Ext.rawValue (a : Int) : Sub (f.rawValue a) (h.rawValue a) := by
  unfold Img.rawValue
  refine (x.valueAt a).bind fun va _ => (x.u8 va).bind fun c _ => ?_
  cases ofCode c with
  | none => exact Sub.refl _
  | some t => exact Sub.ite ((x.rd _ _).bind fun _ _ => Sub.refl _) (x.content _ _)
theorem Ext.pGetData (a p : Int) : Sub (f.pGetData a p) (h.pGetData a p) := by
  unfold Img.pGetData
  refine (x.u8 _).bind fun c _ => ?_
  cases ofCode c with
  | none => exact Sub.refl _
  | some t => exact Sub.ite (x.content _ _) ((x.i32 _).bind fun _ _ => x.content _ _)
theorem Ext.pGetInt (a : Int) (p : Option Int) : Sub (f.pGetInt a p) (h.pGetInt a p) := by
  unfold Img.pGetInt
  cases p with
  | none => exact Sub.refl _
  | some p => exact (x.u8 _).bind fun _ _ => Sub.ite (x.i32 _) (Sub.ite ((x.i32 _).bind fun _ _ => (x.str _).bind fun _ _ => Sub.refl _) (Sub.refl _))
theorem Ext.getBinary (a : Int) : Sub (f.getBinary a) (h.getBinary a) :=
  (x.valueAt a).bind fun _ _ => (x.u8 _).bind fun _ _ => Sub.ite ((x.i32 _).bind fun _ _ => Sub.refl _) (Sub.ite ((x.str _).bind fun _ _ => Sub.refl _) (Sub.refl _))
theorem Ext.loadLoop (a refs A0 A1 : Int) : ∀ (n : Nat) (s : Int), Sub (f.loadLoop a refs A0 A1 n s) (h.loadLoop a refs A0 A1 n s)
  | 0, _ => Sub.refl _
  | n+1, s => by
    unfold Img.loadLoop
    exact (x.i32 _).bind fun _ _ => Sub.ite (Sub.refl _) (Sub.ite (Sub.refl _) ((x.strnlen _ _).bind fun _ _ => Sub.ite (Sub.refl _) (Ext.loadLoop a refs A0 A1 n _)))
theorem Ext.load (a : Int) : Sub (f.load a) (h.load a) := by
  unfold Img.load
  refine (x.getParamByName a _).bind fun _ _ => (x.pGetInt a _).bind fun _ _ => Sub.ite (Sub.refl _) (Sub.ite (Sub.refl _)
    ((x.getParamByName a _).bind fun _ _ => (x.pGetInt a _).bind fun _ _ => (x.getBinary a).bind fun b _ => ?_))
  match b with
  | none => exact Sub.refl _
  | some (refs, size) => exact Sub.ite (Sub.refl _) ((x.loadLoop _ _ _ _ _ _).bind fun _ _ => Sub.refl _)
theorem Ext.getSymbol (t : RTab) (id : Int) : Sub (f.getSymbol t id) (h.getSymbol t id) := by
  unfold Img.getSymbol
  refine Sub.ite (Sub.refl _) (Sub.ite (Sub.refl _) ?_)
  cases t.refs with
  | none => exact Sub.refl _
  | some r => exact (x.i32 _).bind fun _ _ => x.str _
theorem Ext.checkParams (a len pcount : Int) : ∀ (n : Nat) (p : Int), Sub (f.checkParams a len pcount n p) (h.checkParams a len pcount n p)
  | 0, _ => Sub.refl _
  | n+1, p => by
    unfold Img.checkParams
    exact (x.i16 _).bind fun _ _ => (x.u8 _).bind fun _ _ => Sub.ite (Sub.refl _) (Sub.ite (Sub.refl _) (Sub.ite (Sub.refl _) (Sub.ite (Ext.checkParams a len pcount n _)
      ((x.i32 _).bind fun _ _ => Sub.ite (Sub.refl _) (Sub.ite (Sub.refl _) (Sub.ite ((x.strnlen _ _).bind fun _ _ => Sub.refl _) (Sub.refl _)))))))

theorem Ext.checkChildren (chk chk' : Int → Out Bool) (hc : ∀ y, chk y = .ok true → chk' y = .ok true) (a : Int) :
    ∀ (n : Nat) (i : Int), f.checkChildren chk a n i = .ok true → h.checkChildren chk' a n i = .ok true
  | 0, _, _ => rfl
  | n+1, i, hh => by
    unfold Img.checkChildren at hh ⊢
    obtain ⟨ch, h1, hh⟩ := Out.bind_eq_ok hh
    rw [x.getChildByIndex a i _ h1]
    cases ch with
    | none => cases hh
    | some y =>
      simp only [Out.ok_bind] at hh ⊢
      obtain ⟨b, h2, hh⟩ := Out.bind_eq_ok hh
      cases b with
      | false => cases hh
      | true =>
        rw [hc y h2]
        simp only [Out.ok_bind, if_true] at hh ⊢
        exact Ext.checkChildren chk chk' hc a n _ hh

theorem Ext.check (tc pc : Int) (rec : Bool) : ∀ (fuel : Nat) (a : Int), f.check tc pc rec fuel a = .ok true → h.check tc pc rec fuel a = .ok true
  | 0, _, hh => by unfold Img.check at hh; cases hh
  | fuel+1, a, hh => by
    have hs := x.size
    unfold Img.check at hh ⊢
    split at hh
    · cases hh
    · next h1 =>
      split at hh
      · cases hh
      · next h2 =>
        rw [if_neg h1, if_neg (by omega)]
        obtain ⟨len, hl, hh⟩ := Out.bind_eq_ok hh
        rw [x.length a _ hl]
        simp only [Out.ok_bind]
        split at hh
        · cases hh
        · next h3 =>
          rw [if_neg (by omega)]
          split at hh
          · cases hh
          · next h4 =>
            rw [if_neg h4]
            obtain ⟨nm, hnm, hh⟩ := Out.bind_eq_ok hh
            obtain ⟨pcn, hpc, hh⟩ := Out.bind_eq_ok hh
            obtain ⟨cc, hcc, hh⟩ := Out.bind_eq_ok hh
            rw [x.name a _ hnm, x.paramcount a _ hpc, x.childcount a _ hcc]
            simp only [Out.ok_bind]
            split at hh
            · cases hh
            · next h5 =>
              split at hh
              · cases hh
              · next h6 =>
                split at hh
                · cases hh
                · next h7 =>
                  rw [if_neg h5, if_neg h6, if_neg h7]
                  obtain ⟨r, hr, hh⟩ := Out.bind_eq_ok hh
                  rw [x.checkParams _ _ _ _ _ _ hr]
                  simp only [Out.ok_bind]
                  cases r with
                  | some b => exact hh
                  | none =>
                    simp only at hh ⊢
                    cases rec with
                    | false => rfl
                    | true =>
                      simp only [if_true] at hh ⊢
                      exact x.checkChildren _ _ (fun y hy => Ext.check tc pc true fuel y hy) a _ _ hh

theorem Ext.checkPtr (tc pc : Int) (rec : Bool) (fuel : Nat) (p : Option Int) : Sub (f.checkPtr tc pc rec fuel p) (h.checkPtr tc pc rec fuel p) := by
  intro v hv
  cases p with
  | none => cases hv
  | some a =>
    unfold Img.checkPtr at hv ⊢
    simp only at hv ⊢
    obtain ⟨r, hr, hv⟩ := Out.bind_eq_ok hv
    cases r with
    | false => cases hv
    | true => rw [x.check _ _ _ _ _ hr]; exact hv

/-- a longer file opens with the same tables and the same root -/
theorem Ext.initialize (fuel : Nat) : Sub (f.initialize fuel) (h.initialize fuel) := by
  have hs := x.size
  unfold Img.initialize
  by_cases hz : f.size ≤ 12
  · rw [if_pos hz]; intro v hv; cases hv
  · rw [if_neg hz, if_neg (by omega)]
    refine (x.name 0).bind fun _ _ => Sub.ite (Sub.refl _) ((x.checkPtr _ _ _ _ _).bind fun _ _ => (x.getChildByName _ _).bind fun _ _ => (x.checkPtr _ _ _ _ _).bind fun _ _ =>
      (x.load _).bind fun _ _ => (x.getChildByName _ _).bind fun _ _ => (x.checkPtr _ _ _ _ _).bind fun _ _ => (x.load _).bind fun _ _ => (x.checkPtr _ _ _ _ _).bind fun _ _ =>
      (x.getChildByName _ _).bind fun p _ => ?_)
    cases p with
    | none => exact Sub.refl _
    | some a => exact (x.getChildByIndex _ _).bind fun _ _ => Sub.refl _

end

mutual
theorem Ext.reads {f h : Img} (x : Ext f h) {flt : CStr → List UInt8} {pt : BStr → XBT} {r : Rd} : ∀ (e : Elem) (a : Int), Reads flt pt f r e a → Reads flt pt h r e a
  | .mk name value params children, a, hr => by
    unfold Reads at hr ⊢
    obtain ⟨⟨id, h1, h2, h2'⟩, h3, h4, ⟨d, h5, h6⟩, h7, h8⟩ := hr
    refine ⟨⟨id, x.name _ _ h1, x.getSymbol _ _ _ h2, h2'⟩, x.paramcount _ _ h3, ?_, ⟨d, h5, x.rawValue _ _ h6⟩, x.childcount _ _ h7, x.readsAll children a 0 h8⟩
    intro i hi
    obtain ⟨p, id, k1, k2, k3, k4⟩ := h4 i hi
    exact ⟨p, id, x.getParamByIndex _ _ _ k1, x.i16 _ _ k2, x.getSymbol _ _ _ k3, x.pGetData _ _ _ k4⟩
theorem Ext.readsAll {f h : Img} (x : Ext f h) {flt : CStr → List UInt8} {pt : BStr → XBT} {r : Rd} : ∀ (es : List Elem) (a : Int) (i : Nat), ReadsAll flt pt f r es a i → ReadsAll flt pt h r es a i
  | [], _, _, _ => by unfold ReadsAll; trivial
  | e :: es, a, i, hr => by
    unfold ReadsAll at hr ⊢
    obtain ⟨⟨y, h1, h2⟩, h3⟩ := hr
    exact ⟨⟨y, x.getChildByIndex _ _ _ h1, x.reads e y h2⟩, x.readsAll es a (i + 1) h3⟩
end

end BX
