import Verif.Props.Store
/-
Property C44 (size of the conversion buffer) and the existence half of C28.
-/
namespace BX
open XBT Spec

namespace Spec

/-- bytes a value needs at most (a type byte, alignment, the text or a fixed size value) -/
def needValue : SVal → Nat
  | .none => 1
  | .text s => s.length + 32
  | .bin t src => (size2 t (binSize t src)).toNat + 9

/-- bytes an attribute needs at most besides its description -/
def needAttr : SVal → Nat
  | .none => 0
  | .text s => s.length + 1
  | .bin t src => (size2 t (binSize t src)).toNat + 16

mutual
/-- bytes an element with its children needs at most in the file -/
def need : Elem → Nat
  | .mk _ value params children => 15 + 8 * params.length + (params.map fun p => needAttr p.2).sum + needValue value + 4 * children.length + needAll children
def needAll : List Elem → Nat
  | [] => 0
  | e :: es => need e + needAll es
end

/-- the memory of a value holds a whole value of the type: an end of the text, or as many bytes as the value has -/
def WholeValue (t : XBT) (src : List UInt8) : Prop :=
  if t = STRING then (0 : UInt8) ∈ src else 0 ≤ size2 t (binSize t src) ∧ (size2 t (binSize t src)).toNat ≤ src.length

/-- the value of the element is a text that can be converted, a whole binary value, or nothing -/
def Convertible (flt : CStr → List UInt8) : SVal → Prop
  | .none => True
  | .text s => textData flt s (detect s) ≠ none
  | .bin t src => WholeValue t src

/-- the value of the attribute is a text whose conversion is not undefined, a whole binary value, or nothing -/
def AttrConvertible (flt : CStr → List UInt8) (t : XBT) : SVal → Prop
  | .none => True
  | .text s => s ≠ [] → size2 (detect2 s t) 0 = 4 → fromString flt s (detect2 s t) 0 (s.length + 8) ≠ .ub
  | .bin t src => WholeValue t src

mutual
/-- all values of the document are convertible texts or whole binary values, and no element has more attributes and children than can be counted -/
def TextDoc (flt : CStr → List UInt8) (pt : BStr → XBT) : Elem → Prop
  | .mk _ value params children => params.length ≤ 32767 ∧ children.length ≤ 2147483647 ∧ Convertible flt value ∧
      (∀ p ∈ params, AttrConvertible flt (pt p.1) p.2) ∧ TextDocAll flt pt children
def TextDocAll (flt : CStr → List UInt8) (pt : BStr → XBT) : List Elem → Prop
  | [] => True
  | e :: es => TextDoc flt pt e ∧ TextDocAll flt pt es
end

/-- bytes a whole document needs at most: root item, name of the source, both tables of names, container, elements -/
def needDoc (filename : BStr) (e : Elem) : Nat :=
  200 + filename.length + ((tagOps e).map fun op => op.name.length + 6).sum + ((paramOps e).map fun op => op.name.length + 6).sum + need e

end Spec

theorem scanHex_length (s : CStr) (n : Nat) : (scanHex s n).2.length = n := by
  have := scanHexLoop_length n s
  unfold scanHex
  split <;> simp
  omega

theorem fromString_total {flt : CStr → List UInt8} (hflt : ∀ s, (flt s).length = 4) {s : CStr} {t : XBT} {wp limit : Nat} (h : textData flt s t ≠ none)
    (hl : wp + s.length + 31 ≤ limit) :
    ∃ w, fromString flt s t wp limit = .ok w ∧ w.start + (w.bytes ++ List.replicate w.scratch 0).length ≤ limit ∧ w.start + w.bytes.length ≤ wp + s.length + 31 := by
  have h4 := aa_lt wp
  have h8 := aa8_lt wp
  have step : ∀ {α : Type} {o : Out α} {g g0 : α → Wr}, (match o.bind (fun v => Out.ok (g0 v)) with | .ok w => some (⟨t, w.bytes⟩ : Data) | _ => none) ≠ none →
      (∀ v, (g v).start ≤ wp + 7 ∧ (g v).bytes.length ≤ 24 ∧ (g v).scratch = 0) →
      ∃ w, o.bind (fun v => Out.ok (g v)) = .ok w ∧ w.start + (w.bytes ++ List.replicate w.scratch 0).length ≤ limit ∧ w.start + w.bytes.length ≤ wp + s.length + 31 := by
    intro α o g g0 h hg
    cases o with
    | ok v =>
      refine ⟨g v, rfl, ?_, ?_⟩
      · have := hg v; simp only [List.length_append, List.length_replicate]; omega
      · have := hg v; omega
    | fail => exact absurd rfl h
    | ub => exact absurd rfl h
  unfold textData at h
  unfold fromString at h ⊢
  cases t <;> simp only at h ⊢
  case NULL =>
    by_cases h0 : s = []
    · rw [if_pos h0]; refine ⟨_, rfl, ?_, ?_⟩ <;> simp <;> omega
    · rw [if_neg h0] at h; exact absurd rfl h
  case GUID =>
    by_cases h0 : (scanHex s 16).1 = 16
    · rw [if_pos h0]
      have := scanHex_length s 16
      refine ⟨_, rfl, ?_, ?_⟩ <;> simp [this] <;> omega
    · rw [if_neg h0] at h; exact absurd rfl h
  case SHA1 =>
    by_cases h0 : (scanHex s 20).1 = 20
    · rw [if_pos h0]
      have := scanHex_length s 20
      refine ⟨_, rfl, ?_, ?_⟩ <;> simp [this] <;> omega
    · rw [if_neg h0] at h; exact absurd rfl h
  case HEX =>
    rw [if_neg (by omega)]
    have hl2 := scanHex_length s (limit - (aa wp + 4))
    have hh : 2 * (scanHex s (limit - (aa wp + 4))).1 ≤ s.length := by
      unfold scanHex
      split
      · simp
      · exact scanHexLoop_half _ s
    have hr : (scanHex s (limit - (aa wp + 4))).1 ≤ limit - (aa wp + 4) := by
      unfold scanHex
      split
      · simp
      · exact scanHexLoop_length _ s
    refine ⟨_, rfl, ?_, ?_⟩
    · simp only [List.length_append, List.length_replicate, leN_length, List.length_take]; omega
    · simp only [List.length_append, leN_length, List.length_take]; omega
  case STRING => refine ⟨_, rfl, ?_, ?_⟩ <;> simp [cBytes] <;> omega
  case FLOAT => refine ⟨_, rfl, ?_, ?_⟩ <;> simp [hflt] <;> omega
  all_goals first
    | exact absurd rfl h
    | (refine step h ?_; intro v; refine ⟨by simp only; omega, ?_, rfl⟩; simp [le32_length, leN_length, le64_length])

theorem cPrefix_short {v : List UInt8} (h : (0 : UInt8) ∈ v) : (cPrefix v).length < v.length := by
  induction v with
  | nil => cases h
  | cons a v ih =>
    by_cases ha : a = 0
    · subst ha; simp [cPrefix]
    · rcases List.mem_cons.1 h with h | h
      · exact absurd h.symm ha
      · have := ih h
        unfold cPrefix at this ⊢
        rw [List.takeWhile_cons, if_pos (by simpa using ha)]
        simp only [List.length_cons]; omega

theorem copyTo_total {t : XBT} {src : List UInt8} (h : WholeValue t src) (m : Mem) {wp limit : Nat} (hl : wp + (size2 t (binSize t src)).toNat + 8 ≤ limit) :
    ∃ m' wp', copyTo limit m src t (binSize t src) wp = .ok (m', wp') ∧ wp' ≤ wp + 7 + (size2 t (binSize t src)).toNat := by
  have h4 := aa_lt wp
  have h8 := aa8_lt wp
  have hx : xalign t ≤ 8 := by cases t <;> decide
  unfold copyTo xbtCopy
  unfold WholeValue at h
  simp only
  by_cases hs : t = STRING
  · rw [if_pos hs] at h
    subst hs
    have hlen := cPrefix_short h
    have e1 : size2 STRING (binSize STRING src) = (cPrefix src).length + 1 := rfl
    rw [e1] at hl ⊢
    rw [if_neg (by omega), if_pos rfl, if_neg (by omega), Out.ok_bind, if_neg (by omega)]
    exact ⟨_, _, rfl, by simp only; omega⟩
  · rw [if_neg hs] at h
    rw [if_neg (by omega), if_neg hs]
    by_cases ha : xalign t = 4 ∨ xalign t = 8
    · rw [if_pos ha, if_neg (by omega), Out.ok_bind, if_neg (fun h => hs h.1)]
      refine ⟨_, _, rfl, ?_⟩
      simp only
      split <;> omega
    · rw [if_neg ha, Out.ok_bind, if_neg (fun h => hs h.1)]
      exact ⟨_, _, rfl, by simp only; omega⟩

theorem writeValue_total {c : Ctx} (hflt : ∀ s, (c.flt s).length = 4) {v : SVal} (hv : Convertible c.flt v) (m : Mem) (va : Nat) (hl : va + needValue v ≤ c.limit) :
    ∃ m' wp', writeValue c m va v = .ok (m', wp') ∧ wp' ≤ va + needValue v := by
  cases v with
  | none =>
    simp only [needValue] at hl
    refine ⟨memPut m va [NULL.code], va + 1, ?_, Nat.le_refl _⟩
    simp only [writeValue]
    rw [put, if_pos (by simpa using hl)]
    rfl
  | text s =>
    simp only [needValue] at hl
    obtain ⟨w, hw, h1, h2⟩ := fromString_total hflt (wp := va + 1) (limit := c.limit) hv (by omega)
    refine ⟨memPut (memPut m va [(detect s).code]) w.start (w.bytes ++ List.replicate w.scratch 0), w.start + w.bytes.length, ?_, by simp only [needValue]; omega⟩
    simp only [writeValue]
    rw [put, if_pos (by simp only [List.length_cons, List.length_nil]; omega)]
    simp only [Out.ok_bind]
    rw [hw]
    simp only [Out.ok_bind]
    rw [put, if_pos h1]
    rfl
  | bin t src =>
    simp only [needValue] at hl ⊢
    simp only [writeValue]
    by_cases h0 : t = NULL
    · rw [if_pos h0, put, if_pos (by simp only [List.length_cons, List.length_nil]; omega)]
      exact ⟨_, _, rfl, by omega⟩
    · rw [if_neg h0, put, if_pos (by simp only [List.length_cons, List.length_nil]; omega), Out.ok_bind]
      obtain ⟨m', wp', h1, h2⟩ := copyTo_total hv (memPut m va [t.code]) (wp := va + 1) (limit := c.limit) (by omega)
      exact ⟨m', wp', h1, by omega⟩

theorem writeParam_total {c : Ctx} (hflt : ∀ s, (c.flt s).length = 4) {x pd : Nat} {p : BStr × SVal} (hv : AttrConvertible c.flt (c.ptype p.1) p.2) (hok : AttrOk (c.ptype p.1) p.2)
    (m : Mem) (wp : Nat) (hpd : pd % 4 = 0) (hp : pd + 8 ≤ c.limit) (hl : wp + needAttr p.2 ≤ c.limit) :
    ∃ m' wp', writeParam c x pd p m wp = .ok (m', wp') ∧ wp' ≤ wp + needAttr p.2 := by
  obtain ⟨name, v⟩ := p
  simp only at hv hok hl ⊢
  unfold writeParam
  simp only
  rw [put, if_pos (by rw [leN_length]; omega)]
  simp only [Out.ok_bind]
  have null : ∀ m : Mem, ∃ m', (do
      let m ← put c.limit m (pd + 2) [NULL.code]
      let m ← put c.limit m (pd + 4) (le32 0)
      return (m, wp) : Out (Mem × Nat)) = .ok (m', wp) := by
    intro m
    rw [put, if_pos (by simp only [List.length_cons, List.length_nil]; omega)]
    simp only [Out.ok_bind]
    rw [put, if_pos (by rw [le32_length]; omega)]
    exact ⟨_, rfl⟩
  cases v with
  | none => obtain ⟨m', h⟩ := null _; exact ⟨m', wp, h, by omega⟩
  | text v =>
    simp only [needAttr] at hl ⊢
    by_cases h0 : v = []
    · rw [if_pos h0]; obtain ⟨m', h⟩ := null _; exact ⟨m', wp, h, by omega⟩
    · rw [if_neg h0]
      have hid : (if 0 ≤ c.params.find (some name) then c.params.type (c.params.find (some name)).toNat else UNKNOWN) = c.ptype name := rfl
      rw [hid]
      have hcv := hv h0
      have hd := hok.2 h0
      generalize detect2 v (c.ptype name) = t at *
      have str : ∀ m : Mem, ∃ m' wp', writeParamStr c x pd v m wp = .ok (m', wp') ∧ wp' ≤ wp + (v.length + 1) := by
        intro m
        unfold writeParamStr
        rw [put, if_pos (by simp only [List.length_cons, List.length_nil]; omega)]
        simp only [Out.ok_bind]
        rw [put, if_pos (by rw [le32_length]; omega)]
        simp only [Out.ok_bind]
        rw [put, if_pos (by simp only [cBytes, List.length_append, List.length_map, List.length_cons, List.length_nil]; omega)]
        exact ⟨_, _, rfl, by omega⟩
      by_cases h4 : size2 t 0 = 4
      · rw [if_pos h4]
        cases hfs : fromString c.flt v t (pd + 4) c.limit with
        | fail => exact str _
        | ub =>
          exfalso
          apply hcv h4
          revert hfs hd
          have aux : ∀ {α : Type} {o : Out α} {g g0 : α → Wr}, o.bind (fun v => Out.ok (g v)) = .ub → o.bind (fun v => Out.ok (g0 v)) = .ub := by
            intro α o g g0 h; cases o <;> first | rfl | cases h
          unfold fromString
          cases t <;> simp only <;> intro hd hfs
          case HEX => exact absurd rfl hd.2
          case NULL => split at hfs <;> cases hfs
          case GUID => split at hfs <;> cases hfs
          case SHA1 => split at hfs <;> cases hfs
          case STRING => cases hfs
          case FLOAT => cases hfs
          all_goals first | cases hfs | exact aux hfs
        | ok w =>
          simp only
          obtain ⟨i4, ist⟩ := size2_four hfs h4 hd.1 hd.2
          have hws : w.start = pd + 4 ∧ w.bytes.length = 4 ∧ w.scratch = 0 := by
            have haa : aa (pd + 4) = pd + 4 := aa_of_mod (by omega)
            have aux : ∀ {α : Type} {o : Out α} {g : α → Wr}, o.bind (fun v => Out.ok (g v)) = .ok w →
                (∀ v, (g v).start = aa (pd + 4) ∧ (g v).bytes.length = 4 ∧ (g v).scratch = 0) → w.start = pd + 4 ∧ w.bytes.length = 4 ∧ w.scratch = 0 := by
              intro α o g h hg
              obtain ⟨v, -, h2⟩ := Out.obind_eq_ok h
              cases h2
              have := hg v
              rw [haa] at this; exact this
            revert hfs i4
            unfold fromString
            cases t <;> simp only <;> intro hfs i4
            case FLOAT => cases hfs; exact ⟨haa, hflt _, rfl⟩
            all_goals first
              | (exfalso; revert i4; decide)
              | cases hfs
              | (refine aux hfs ?_; intro v; refine ⟨rfl, ?_, rfl⟩; simp [le32_length, leN_length])
          rw [put, if_pos (by simp only [List.length_append, List.length_replicate]; omega)]
          simp only [Out.ok_bind]
          rw [put, if_pos (by simp only [List.length_cons, List.length_nil]; omega)]
          exact ⟨_, _, rfl, by omega⟩
      · rw [if_neg h4]; exact str _
  | bin t src =>
    simp only [needAttr] at hl ⊢
    have hv : WholeValue t src := hv
    obtain ⟨o1, o2, o3, o4, o5, o6, -⟩ := hok
    by_cases h0 : t = NULL
    · rw [if_pos h0]; obtain ⟨m', h⟩ := null _; exact ⟨m', wp, h, by omega⟩
    · rw [if_neg h0]
      have out : ∀ m : Mem, ∃ m' wp', (do
          let wp := if xalign t = 4 then aa wp else if xalign t = 8 then aa8 wp else wp
          let m ← put c.limit m (pd + 2) [t.code]
          let m ← put c.limit m (pd + 4) (le32 ((wp : Int) - x))
          copyTo c.limit m src t (binSize t src) wp : Out (Mem × Nat)) = .ok (m', wp') ∧ wp' ≤ wp + ((size2 t (binSize t src)).toNat + 16) := by
        intro m
        have h4 := aa_lt wp
        have h8 := aa8_lt wp
        obtain ⟨w, hw, hw2⟩ : ∃ w, w = (if xalign t = 4 then aa wp else if xalign t = 8 then aa8 wp else wp) ∧ w ≤ wp + 7 := ⟨_, rfl, by split <;> (try split) <;> omega⟩
        simp only [← hw]
        rw [put, if_pos (by simp only [List.length_cons, List.length_nil]; omega), Out.ok_bind, put, if_pos (by rw [le32_length]; omega), Out.ok_bind]
        obtain ⟨m', wp', g1, g2⟩ := copyTo_total hv (memPut (memPut m (pd + 2) [t.code]) (pd + 4) (le32 ((w : Int) - x))) (wp := w) (limit := c.limit) (by omega)
        exact ⟨m', wp', g1, by omega⟩
      by_cases hvz : isVarsize t = true
      · rw [if_pos hvz]
        have : binSize t src = (rdI32 src).toNat := by
          unfold binSize
          rw [if_pos]
          cases t <;> first | (exact absurd hvz (by decide)) | exact absurd rfl o4 | (exact Or.inl rfl) | exact Or.inr rfl
        rw [← this]
        exact out _
      · rw [if_neg hvz]
        have hb : binSize t src = 0 := by
          unfold binSize
          rw [if_neg, if_neg o5]
          rintro (rfl | rfl) <;> exact hvz rfl
        rw [hb] at out ⊢
        by_cases hi : t ≠ STRING ∧ size2 t 0 ≤ 4
        · rw [if_pos hi]
          unfold WholeValue at hv
          rw [if_neg o5, hb] at hv
          cases hc : copyTo c.limit (memPut m pd (leN 2 (toU 16 (c.params.find (some name))))) src t 0 (pd + 4) with
          | fail => exact out _
          | ub =>
            exfalso
            unfold copyTo xbtCopy at hc
            simp only at hc
            split at hc
            · cases hc
            · split at hc
              · rw [if_neg (by omega), Out.ok_bind, if_neg (fun h => o5 h.1)] at hc; cases hc
              · rw [Out.ok_bind, if_neg (fun h => o5 h.1)] at hc; cases hc
          | ok r =>
            simp only
            rw [put, if_pos (by simp only [List.length_cons, List.length_nil]; omega)]
            exact ⟨_, _, rfl, by omega⟩
        · rw [if_neg hi]; exact out _

theorem writeParams_total {c : Ctx} (hflt : ∀ s, (c.flt s).length = 4) {x : Nat} (ps : List (BStr × SVal)) (pd : Nat) (m : Mem) (wp : Nat)
    (hv : ∀ p ∈ ps, AttrConvertible c.flt (c.ptype p.1) p.2) (hok : ∀ p ∈ ps, AttrOk (c.ptype p.1) p.2) (hpd : pd % 4 = 0) (hp : pd + 8 * ps.length ≤ c.limit)
    (hl : wp + (ps.map fun p => needAttr p.2).sum ≤ c.limit) :
    ∃ m' wp', writeParams c x ps pd m wp = .ok (m', wp') ∧ wp' ≤ wp + (ps.map fun p => needAttr p.2).sum := by
  induction ps generalizing pd m wp with
  | nil => exact ⟨m, wp, rfl, by omega⟩
  | cons p ps ih =>
    simp only [List.length_cons, List.map_cons, List.sum_cons] at hp hl ⊢
    obtain ⟨m1, w1, h1, h2⟩ := writeParam_total hflt (x := x) (hv p (by simp)) (hok p (by simp)) m wp hpd (by omega) (by omega)
    obtain ⟨m2, w2, h3, h4⟩ := ih (pd + 8) m1 w1 (fun q hq => hv q (by simp [hq])) (fun q hq => hok q (by simp [hq])) (by omega) (by omega) (by omega)
    refine ⟨m2, w2, ?_, by omega⟩
    unfold writeParams
    rw [h1]
    exact h3

mutual
theorem writeNode_total {c : Ctx} (hflt : ∀ s, (c.flt s).length = 4) : ∀ (e : Elem) (m : Mem) (wp : Nat), TextDoc c.flt c.ptype e → TreeOk c.ptype e → wp + need e ≤ c.limit →
    ∃ m' wp' x, writeNode c e m wp = .ok (m', wp', x) ∧ wp' ≤ wp + need e
  | .mk name value params children, m, wp, hd, hok, hl => by
    unfold TextDoc at hd
    unfold TreeOk at hok
    unfold need at hl ⊢
    unfold writeNode
    simp only
    have hlt := aa_lt wp
    have hm := aa_mod wp
    generalize aa wp = x at *
    have nv : 1 ≤ needValue value := by cases value <;> simp only [needValue] <;> omega
    rw [if_neg (by omega), put, if_pos (by rw [headBytes_length]; omega)]
    simp only [Out.ok_bind]
    obtain ⟨m1, w1, e1, l1⟩ := writeValue_total hflt hd.2.2.1 (memPut m x (headBytes (c.tags.find (some name)) params.length children.length))
      (x + 12 + 8 * params.length + 4 * children.length) (by omega)
    rw [e1]
    simp only [Out.ok_bind]
    obtain ⟨m2, w2, e2, l2⟩ := writeParams_total hflt (x := x) params (x + 12) m1 w1 hd.2.2.2.1 hok.2.1 (by omega) (by omega) (by omega)
    rw [e2]
    simp only [Out.ok_bind]
    obtain ⟨m3, w3, e3, l3⟩ := writeChildren_total hflt children (x := x) (x + 12 + 8 * params.length) m2 w2 hd.2.2.2.2 hok.2.2 (by omega) (by omega)
    rw [e3]
    simp only [Out.ok_bind]
    rw [put, if_pos (by rw [le32_length]; omega)]
    exact ⟨_, _, _, rfl, by omega⟩
theorem writeChildren_total {c : Ctx} (hflt : ∀ s, (c.flt s).length = 4) {x : Nat} : ∀ (es : List Elem) (ca : Nat) (m : Mem) (wp : Nat), TextDocAll c.flt c.ptype es → TreeOkAll c.ptype es →
    ca + 4 * es.length ≤ c.limit → wp + needAll es ≤ c.limit → ∃ m' wp', writeChildren c x es ca m wp = .ok (m', wp') ∧ wp' ≤ wp + needAll es
  | [], ca, m, wp, _, _, _, _ => by unfold writeChildren needAll; exact ⟨m, wp, rfl, by omega⟩
  | e :: es, ca, m, wp, hd, hok, hc, hl => by
    unfold TextDocAll at hd
    unfold TreeOkAll at hok
    unfold needAll at hl ⊢
    simp only [List.length_cons] at hc
    unfold writeChildren
    obtain ⟨m1, w1, x1, e1, l1⟩ := writeNode_total hflt e m wp hd.1 hok.1 (by omega)
    rw [e1]
    simp only [Out.ok_bind]
    rw [put, if_pos (by rw [le32_length]; omega)]
    simp only [Out.ok_bind]
    obtain ⟨m2, w2, e2, l2⟩ := writeChildren_total hflt es (x := x) (ca + 4) (memPut m1 ca (le32 ((x1 : Int) - x))) w1 hd.2 hok.2 (by omega) (by omega)
    exact ⟨m2, w2, e2, by omega⟩
end


theorem tabNeed (ops : List RegOp) :
    5 * (regAll ops).length + ((regAll ops).map fun e => e.1.length + 1).sum ≤ (ops.map fun op => op.name.length + 6).sum := by
  have names : ∀ t : SymTab, (t.map fun e => e.1.length + 1) = t.names.map fun s => s.length + 1 := by
    intro t; simp [SymTab.names, Function.comp_def]
  revert ops
  refine snocInd _ (by simp [regAll]) ?_
  intro ops op ih
  rw [regAll_snoc]
  obtain ⟨upd, ini, he⟩ := op.run_eq (regAll ops)
  rw [he]
  generalize regAll ops = t at ih
  simp only [List.map_append, List.sum_append, List.map_cons, List.map_nil, List.sum_cons, List.sum_nil]
  unfold SymTab.reg
  simp only
  split
  · simp only
    rw [names, t.names_set, ← names, List.length_set]
    omega
  · next P _ =>
    split
    · simp only; omega
    · simp only
      have hsum : ((t.map fun e => e.1.length + 1).take P).sum + ((t.map fun e => e.1.length + 1).drop P).sum = (t.map fun e => e.1.length + 1).sum := by
        rw [← List.sum_append, List.take_append_drop]
      have hlen : (t.take P).length + (t.drop P).length = t.length := by rw [← List.length_append, List.take_append_drop]
      simp only [List.length_append, List.length_cons, List.map_append, List.map_cons, List.sum_append, List.sum_cons, List.map_take, List.map_drop]
      omega

theorem fillData_total {c : Ctx} (hflt : ∀ s, (c.flt s).length = 4) (filename : BStr) (mtime : Int) (e : Elem) (m : Mem) (hd : TextDoc c.flt c.ptype e)
    (hok : TreeOk c.ptype e) (N1 N2 : Nat) (h1 : 5 * c.tags.length + (c.tags.map fun e => e.1.length + 1).sum ≤ N1)
    (h2 : 5 * c.params.length + (c.params.map fun e => e.1.length + 1).sum ≤ N2) (hl : 190 + filename.length + N1 + N2 + need e ≤ c.limit) :
    ∃ m' len, fillData c filename mtime e m = .ok (m', len) ∧ len ≤ 190 + filename.length + N1 + N2 + need e := by
  have hge := aa_lt (57 + filename.length + 1)
  have hge' := aa_ge (57 + filename.length + 1)
  unfold fillData putDesc
  simp only
  generalize aa (57 + filename.length + 1) = wq at *
  rw [put, if_pos (by rw [headBytes_length]; omega)]
  simp only [Out.ok_bind]
  rw [put, if_pos (by lens; omega)]
  simp only [Out.ok_bind]
  rw [put, if_pos (by lens; omega)]
  simp only [Out.ok_bind]
  rw [put, if_pos (by lens; omega)]
  simp only [Out.ok_bind]
  rw [put, if_pos (by lens; omega)]
  simp only [Out.ok_bind]
  rw [put, if_pos (by lens; omega)]
  simp only [Out.ok_bind]
  rw [put, if_pos (by lens; omega)]
  simp only [Out.ok_bind]
  rw [put, if_pos (by lens; omega)]
  simp only [Out.ok_bind]
  rw [put, if_pos (by lens; omega)]
  simp only [Out.ok_bind]
  rw [put, if_pos (by lens; omega)]
  simp only [Out.ok_bind]
  rw [put, if_pos (by lens; omega)]
  simp only [Out.ok_bind]
  rw [put, if_pos (by lens; omega)]
  simp only [Out.ok_bind]
  rw [put, if_pos (by lens; omega)]
  simp only [Out.ok_bind]
  rw [put, if_pos (by lens; omega)]
  simp only [Out.ok_bind]
  rw [put, if_pos (by lens; omega)]
  simp only [Out.ok_bind]
  rw [put, if_pos (by lens; omega)]
  simp only [Out.ok_bind]
  generalize memPut _ (36 + 4) (le32 mtime) = ma
  obtain ⟨mb, wb, xb, eb, lb⟩ := C27_stored c.limit (-3) c.tags ma (wq + 20) (by omega)
  rw [eb]
  simp only [Out.ok_bind]
  rw [put, if_pos (by lens; omega)]
  simp only [Out.ok_bind]
  obtain ⟨mc, wc, xc, ec, lc⟩ := C27_stored c.limit (-4) c.params (memPut mb 44 (le32 (xb : Int))) wb (by omega)
  rw [ec]
  simp only [Out.ok_bind]
  rw [put, if_pos (by lens; omega)]
  simp only [Out.ok_bind]
  unfold writePayload
  simp only
  have hx := aa_lt wc
  have hne : 15 ≤ need e := by cases e; unfold need; omega
  generalize aa wc = x3 at *
  rw [put, if_pos (by rw [headBytes_length]; omega)]
  simp only [Out.ok_bind]
  rw [put, if_pos (by lens; omega)]
  simp only [Out.ok_bind]
  obtain ⟨md, wd, xd, ed, ld⟩ := writeNode_total hflt e (memPut (memPut (memPut mc 48 (le32 (xc : Int))) x3 (headBytes (-6) 0 1)) (x3 + 16) [NULL.code]) (x3 + 17) hd hok (by omega)
  rw [ed]
  simp only [Out.ok_bind]
  rw [put, if_pos (by lens; omega)]
  simp only [Out.ok_bind]
  rw [put, if_pos (by lens; omega)]
  simp only [Out.ok_bind, Out.pure_eq]
  rw [put, if_pos (by lens; omega)]
  simp only [Out.ok_bind]
  rw [put, if_pos (by lens; omega)]
  exact ⟨_, _, rfl, by omega⟩

mutual
theorem TextDoc.congr {flt : CStr → List UInt8} {pt pt' : BStr → XBT} : ∀ e : Elem, NamesIn (fun _ => True) (fun s => pt' s = pt s) e → TextDoc flt pt e → TextDoc flt pt' e
  | .mk name value params children, h, hok => by
    unfold NamesIn at h
    unfold TextDoc at hok ⊢
    exact ⟨hok.1, hok.2.1, hok.2.2.1, fun p hp => by rw [h.2.1 p hp]; exact hok.2.2.2.1 p hp, TextDocAll.congr children h.2.2 hok.2.2.2.2⟩
theorem TextDocAll.congr {flt : CStr → List UInt8} {pt pt' : BStr → XBT} : ∀ es : List Elem, NamesInAll (fun _ => True) (fun s => pt' s = pt s) es → TextDocAll flt pt es → TextDocAll flt pt' es
  | [], _, _ => by unfold TextDocAll; trivial
  | e :: es, h, hok => by
    unfold NamesInAll at h
    unfold TextDocAll at hok ⊢
    exact ⟨TextDoc.congr e h.1 hok.1, TextDocAll.congr es h.2 hok.2⟩
end

/-- C44 (and C28, existence): the conversion of a document of faithfully stored kinds of texts and binary values does not leave the buffer of
`1024 + 4*filesize` bytes, and succeeds, whenever that is at least `needDoc`: a bound linear in the numbers of elements and
attributes and the lengths of all texts and names. -/
theorem C44_room_partial (flt : CStr → List UInt8) (hflt : ∀ s, (flt s).length = 4) (filename : BStr) (mtime : Int) (filesize : Nat) (m0 : Mem) (e : Elem)
    (hnames : NamesIn NoNul NoNul e) (hpars : AtMost 32768 (paramOps e)) (hdoc : TextDoc flt (docAttrType e) e) (hok : TreeOk (docAttrType e) e)
    (hroom : needDoc filename e ≤ 1024 + filesize * 4) :
    ∃ f, makeXb flt filename mtime filesize m0 e = .ok f ∧ f.size < needDoc filename e := by
  obtain ⟨hn1, hn2⟩ := ops_of_namesIn _ _ e hnames
  have hpt : NamesIn (fun _ => True) (fun s => Ctx.ptype ⟨regAll (tagOps e), regAll (paramOps e), flt, 1024 + filesize * 4⟩ s = docAttrType e s) e := by
    apply namesIn_of_ops
    · intro _ _; trivial
    · intro op hop
      exact ptype_eq hn2 rfl (hn2 op hop) ((C25_members _ hn2 hpars _).mpr ⟨op, hop, rfl⟩)
  unfold needDoc at hroom ⊢
  obtain ⟨m', len, h1, h2⟩ := fillData_total (c := ⟨regAll (tagOps e), regAll (paramOps e), flt, 1024 + filesize * 4⟩) hflt filename mtime e m0
    (TextDoc.congr e hpt hdoc) (TreeOk.congr e hpt hok) _ _ (tabNeed (tagOps e)) (tabNeed (paramOps e)) (by simp only; omega)
  refine ⟨⟨m', aa len⟩, ?_, ?_⟩
  · unfold makeXb makeXbWith
    simp only
    rw [h1]
    rfl
  · have := aa_lt len
    simp only
    omega

/-- C28: with enough room, the whole way from a text document to a readable file. -/
theorem C28_text_document_partial (flt : CStr → List UInt8) (hflt : ∀ s, (flt s).length = 4) (filename : BStr) (hfn : NoNul filename) (mtime : Int) (filesize : Nat)
    (hsz : 1024 + filesize * 4 < 2147483648) (m0 : Mem) (e : Elem) (hroom : needDoc filename e ≤ 1024 + filesize * 4) (hnames : NamesIn NoNul NoNul e)
    (htags : AtMost 32768 (tagOps e)) (hpars : AtMost 32768 (paramOps e)) (hdoc : TextDoc flt (docAttrType e) e) (hok : TreeOk (docAttrType e) e) (fuel : Nat) :
    ∃ f r x, makeXb flt filename mtime filesize m0 e = .ok f ∧ f.initialize (fuel + 1) = .ok r ∧ r.root = some x ∧ Reads flt (docAttrType e) f r e x := by
  obtain ⟨f, h1, h2⟩ := C44_room_partial flt hflt filename mtime filesize m0 e hnames hpars hdoc hok hroom
  obtain ⟨r, x, h3, h4, h5, -⟩ := C28_document_partial flt hflt filename hfn mtime filesize hsz m0 e f h1 (by omega) hnames htags hpars hok fuel
  exact ⟨f, r, x, h1, h3, h4, h5⟩

theorem nodup_length_le : ∀ (l m : List BStr), l.Nodup → (∀ s ∈ l, s ∈ m) → l.length ≤ m.length
  | [], _, _, _ => by simp
  | a :: l, m, hn, hs => by
    have ham : a ∈ m := hs a (by simp)
    have hn' := List.nodup_cons.mp hn
    have := nodup_length_le l (m.erase a) hn'.2 (fun s hsl => (List.mem_erase_of_ne (by rintro rfl; exact hn'.1 hsl)).mpr (hs s (by simp [hsl])))
    rw [List.length_erase_of_mem ham] at this
    have : 0 < m.length := List.length_pos_of_mem ham
    simp only [List.length_cons]
    omega

theorem atMost_length (ops : List RegOp) (n : Nat) (h : ops.length ≤ n) : AtMost n ops := by
  intro l hl hs
  have := nodup_length_le l (ops.map RegOp.name) hl (fun s hsl => by obtain ⟨op, h1, h2⟩ := hs s hsl; exact List.mem_map.mpr ⟨op, h1, h2⟩)
  simp only [List.length_map] at this
  omega

instance (s : CStr) : Decidable (CText s) := inferInstanceAs (Decidable (∀ c ∈ s, _))
instance (v : SVal) : Decidable (NodeOk v) := by cases v <;> unfold NodeOk <;> infer_instance
instance (t : XBT) (v : SVal) : Decidable (AttrOk t v) := by cases v <;> unfold AttrOk <;> infer_instance
instance (t : XBT) (src : List UInt8) : Decidable (WholeValue t src) := by unfold WholeValue; infer_instance
instance (flt : CStr → List UInt8) (v : SVal) : Decidable (Convertible flt v) := by cases v <;> unfold Convertible <;> infer_instance
instance (flt : CStr → List UInt8) (t : XBT) (v : SVal) : Decidable (AttrConvertible flt t v) := by cases v <;> unfold AttrConvertible <;> infer_instance

/-- a document for the examples: an element with two attributes, a value and two children -/
def exDoc : Elem :=
  .mk (b8 "order") (.text "total: 12".toList) [(b8 "id", .text "17".toList), (b8 "name", .text "desk lamp".toList)]
    [.mk (b8 "item") (.text "3.5".toList) [(b8 "id", .text "18".toList)] [], .mk (b8 "item") .none [] []]

/-- the hypotheses of C28 and C44 are met by a document with attributes, values and children -/
example : NamesIn NoNul NoNul exDoc ∧ AtMost 32768 (tagOps exDoc) ∧ AtMost 32768 (paramOps exDoc) ∧ TextDoc (fun _ => [0,0,0,0]) (docAttrType exDoc) exDoc ∧
    TreeOk (docAttrType exDoc) exDoc ∧ needDoc (b8 "f") exDoc ≤ 1024 + 70 * 4 := by
  refine ⟨?_, atMost_length _ _ (by decide +kernel), atMost_length _ _ (by decide +kernel), ?_, ?_, by decide +kernel⟩
  · simp only [exDoc, NamesIn, NamesInAll]
    decide +kernel
  · simp only [exDoc, TextDoc, TextDocAll]
    decide +kernel
  · simp only [exDoc, TreeOk, TreeOkAll]
    decide +kernel

/-- C44 is false in general: the document `<r><a/>…<a/></r>` with 250 children (1007 bytes) needs more than its buffer. -/
theorem C44_buffer_false : makeXb (fun _ => [0,0,0,0]) (b8 "f.xml") 0 1007 (fun _ => 0)
    (.mk (b8 "r") .none [] (List.replicate 250 (.mk (b8 "a") .none [] []))) = .ub := by
  have : (match makeXb (fun _ => [0,0,0,0]) (b8 "f.xml") 0 1007 (fun _ => 0)
    (.mk (b8 "r") .none [] (List.replicate 250 (.mk (b8 "a") .none [] []))) with | .ub => true | _ => false) = true := by decide +kernel
  revert this
  split
  · intro; assumption
  · intro h; cases h


/-! ### C28 in general is false -/

/-- a document converted, opened, and one answer of the reader about its root element -/
def rootOf {α : Type} (e : Elem) (q : Img → Rd → Int → Out α) : Out α := do
  let f ← makeXb (fun _ => [0,0,0,0]) (b8 "f") 0 100 (fun _ => 0) e
  let r ← f.initialize 1
  match r.root with
  | none => .fail
  | some x => q f r x

/-- the data of the `i`-th attribute -/
def attrOf (i : Int) (f : Img) (_ : Rd) (x : Int) : Out Data := do
  match ← f.getParamByIndex x i with
  | none => .fail
  | some p => f.pGetData x p

/-- C28 fails for `<a x="hello world" b="fade">v</a>`: the attribute looking like hexadecimal digits is stored over what follows
it, so the other attribute is empty afterwards, the value of the element cannot be read, and the attribute itself is lost. -/
theorem C28_hex_attribute_false :
    let e := Elem.mk (b8 "a") (.text "v".toList) [(b8 "x", .text "hello world".toList), (b8 "b", .text "fade".toList)] []
    rootOf e (attrOf 0) = .ok ⟨STRING, [0]⟩ ∧ rootOf e (attrOf 1) ≠ .ok ⟨HEX, [2, 0, 0, 0, 0xfa, 0xde]⟩ ∧ rootOf e (fun f _ x => f.rawValue x) = .fail := by
  decide +kernel

/-- C28 fails for `<a b="1995-03-04"/>`: a date is stored in the description of the attribute, but read from outside of it. -/
theorem C28_date_attribute_false :
    rootOf (.mk (b8 "a") .none [(b8 "b", .text "1995-03-04".toList)] []) (attrOf 0) = .fail := by decide +kernel

/-- C28 fails for `<a>1995-03-04</a>`: the value is stored, but `getData` has no size for it. -/
theorem C28_date_value_false :
    rootOf (.mk (b8 "a") (.text "1995-03-04".toList) [] []) (fun f _ x => f.getData x) = .fail := by decide +kernel

/-- C28 fails for `<a>1995-03-04 01:02:03.123</a>`: the time is stored at a multiple of four and read at a multiple of
eight, here beyond the end of the file. -/
theorem C28_time_value_false :
    rootOf (.mk (b8 "a") (.text "1995-03-04 01:02:03.123".toList) [] []) (fun f _ x => f.rawValue x) = .ub := by decide +kernel

/-- C28 fails for `<a>3000000000</a>`: the value is taken for a number that is then refused, and nothing is stored. -/
theorem C28_refused_value_false :
    makeXb (fun _ => [0,0,0,0]) (b8 "f.xml") 0 100 (fun _ => 0) (.mk (b8 "a") (.text "3000000000".toList) [] []) = .fail := by
  have : (match makeXb (fun _ => [0,0,0,0]) (b8 "f.xml") 0 100 (fun _ => 0) (.mk (b8 "a") (.text "3000000000".toList) [] []) with | .fail => true | _ => false) = true := by
    decide +kernel
  revert this
  split
  · intro; assumption
  · intro h; cases h

/-- C28 fails for a binary IPv6 value of an element: it is stored at a multiple of eight and read by `getData` at a multiple of
four. -/
theorem C28_ipv6_value_false :
    let src : List UInt8 := [1,2,3,4,5,6,7,8,9,10,11,12,13,14,15,16]
    rootOf (.mk (b8 "a") (.bin IPv6 src) [] []) (fun f _ x => f.getData x) ≠ .ok ⟨IPv6, src⟩ := by decide +kernel

/-- C28 fails for a binary string attribute: the next value is stored over all but its first byte. -/
theorem C28_string_attribute_false :
    rootOf (.mk (b8 "a") .none [(b8 "b", .bin STRING [104, 101, 121, 0]), (b8 "c", .bin STRING [98, 121, 101, 0])] []) (attrOf 0) ≠ .ok ⟨STRING, [104, 101, 121, 0]⟩ := by
  decide +kernel

end BX
