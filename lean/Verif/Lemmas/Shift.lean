import Verif.Lemmas.Extend
/-
Writing at a place `D` bytes further on, `D` a multiple of eight, produces the same bytes `D` further on. `Append` fills its buffer
at the alignment of the end of the file, so what it produced is what writing at the end of the file would have produced.
-/
namespace BX
open XBT Spec

/-- `M` contains `m`, moved by `D` -/
def Sh (D : Nat) (m M : Mem) : Prop := ∀ a, M (a + D) = m a

theorem Sh.put {D limit : Nat} {m M : Mem} (hs : Sh D m M) {a : Nat} {bs : List UInt8} {m1 : Mem} (h : put limit m a bs = .ok m1) :
    ∃ M1, put (limit + D) M (a + D) bs = .ok M1 ∧ Sh D m1 M1 := by
  obtain ⟨rfl, hl⟩ := put_ok h
  refine ⟨_, by unfold BX.put; rw [if_pos (by omega)], ?_⟩
  intro i
  unfold memPut
  by_cases hi : a ≤ i ∧ i < a + bs.length
  · rw [if_pos hi, if_pos (by omega), show i + D - (a + D) = i - a by omega]
  · rw [if_neg hi, if_neg (by omega)]
    exact hs i

theorem aa_shift {D : Nat} (hD : D % 8 = 0) (a : Nat) : aa (a + D) = aa a + D := by unfold aa; omega
theorem aa8_shift {D : Nat} (hD : D % 8 = 0) (a : Nat) : aa8 (a + D) = aa8 a + D := by unfold aa8; omega

theorem obind_map {α β γ : Type} (x : Out α) (g : α → Out β) (k : β → γ) : (x.bind g).bind (fun w => .ok (k w)) = x.bind (fun a => (g a).bind fun w => .ok (k w)) := by
  cases x <;> rfl

theorem fromString_shift {D : Nat} (hD : D % 8 = 0) (flt : CStr → List UInt8) (s : CStr) (t : XBT) (wp limit : Nat) :
    fromString flt s t (wp + D) (limit + D) = (fromString flt s t wp limit).bind fun w => .ok ⟨w.start + D, w.bytes, w.scratch⟩ := by
  cases t <;> simp only [fromString, aa_shift hD, aa8_shift hD, obind_map] <;> try rfl
  all_goals try (split <;> rfl)
  · by_cases hl : limit < aa wp + 4
    · rw [if_pos hl, if_pos (by omega)]; rfl
    · rw [if_neg hl, if_neg (by omega), show limit + D - (aa wp + D + 4) = limit - (aa wp + 4) by omega]
      rfl

theorem memPut_shift {D : Nat} {m M : Mem} (hs : Sh D m M) (a : Nat) (bs : List UInt8) : Sh D (memPut m a bs) (memPut M (a + D) bs) := by
  intro i
  unfold memPut
  by_cases hi : a ≤ i ∧ i < a + bs.length
  · rw [if_pos hi, if_pos (by omega), show i + D - (a + D) = i - a by omega]
  · rw [if_neg hi, if_neg (by omega)]
    exact hs i

/-- the outcome of a conversion at a moved place -/
inductive ShOut (D : Nat) : Out (Mem × Nat) → Out (Mem × Nat) → Prop
  | ok {m M : Mem} {w : Nat} : Sh D m M → ShOut D (.ok (m, w)) (.ok (M, w + D))
  | fail : ShOut D .fail .fail
  | ub (y : Out (Mem × Nat)) : ShOut D .ub y

theorem copyTo_shift {D : Nat} (hD : D % 8 = 0) {limit : Nat} {m M : Mem} (hs : Sh D m M) (src : List UInt8) (t : XBT) (size wp : Nat) (ht : 0 ≤ size2 t size) :
    ShOut D (copyTo limit m src t size wp) (copyTo (limit + D) M src t size (wp + D)) := by
  unfold copyTo xbtCopy
  simp only
  rw [show ((limit + D : Nat) : Int) - ((wp + D : Nat) : Int) = (limit : Int) - wp by omega]
  by_cases h1 : (limit : Int) - wp < size2 t size + xalign t
  · rw [if_pos h1, if_pos h1]
    exact .fail
  · rw [if_neg h1, if_neg h1]
    by_cases h2 : t = STRING
    · rw [if_pos h2, if_pos h2]
      by_cases h3 : (cPrefix src).length = src.length
      · rw [if_pos h3]; exact .ub _
      · rw [if_neg h3, if_neg h3]
        simp only [Out.ok_bind]
        by_cases h4 : limit < wp + (cPrefix src).length + 1
        · rw [if_pos ⟨h2, h4⟩]; exact .ub _
        · rw [if_neg (by omega), if_neg (by omega)]
          rw [Out.pure_eq, Out.pure_eq, show (((wp + D : Nat) : Int) + size2 t size).toNat = ((wp : Int) + size2 t size).toNat + D by omega]
          exact .ok (memPut_shift hs _ _)
    · rw [if_neg h2, if_neg h2]
      by_cases h3 : xalign t = 4 ∨ xalign t = 8
      · rw [if_pos h3, if_pos h3]
        by_cases h4 : size2 t size < 0 ∨ src.length < (size2 t size).toNat
        · rw [if_pos h4]; exact .ub _
        · rw [if_neg h4, if_neg h4]
          simp only [Out.ok_bind]
          have e : (if xalign t = 4 then aa (wp + D) else aa8 (wp + D)) = (if xalign t = 4 then aa wp else aa8 wp) + D := by
            rw [aa_shift hD, aa8_shift hD]; split <;> rfl
          rw [e]
          generalize (if xalign t = 4 then aa wp else aa8 wp) = w
          rw [if_neg (fun hh => h2 hh.1), if_neg (fun hh => h2 hh.1), Out.pure_eq, Out.pure_eq]
          rw [show (((w + D : Nat) : Int) + size2 t size).toNat = ((w : Int) + size2 t size).toNat + D by omega]
          exact .ok (memPut_shift hs _ _)
      · rw [if_neg h3, if_neg h3]
        simp only [Out.ok_bind]
        rw [if_neg (fun hh => h2 hh.1), if_neg (fun hh => h2 hh.1), Out.pure_eq, Out.pure_eq,
          show (((wp + D : Nat) : Int) + size2 t size).toNat = ((wp : Int) + size2 t size).toNat + D by omega]
        exact .ok hs

/-- the same writer with a buffer `D` bytes longer -/
def Ctx.longer (c : Ctx) (D : Nat) : Ctx := { c with limit := c.limit + D }

theorem size2_zero_nonneg {t : XBT} (h1 : t ≠ VARIANT) : 0 ≤ size2 t 0 := by cases t <;> first | exact absurd rfl h1 | decide

theorem writeValue_shift {D : Nat} (hD : D % 8 = 0) {c : Ctx} {m M : Mem} (hs : Sh D m M) {va : Nat} {v : SVal} (hok : NodeOk v) {m' : Mem} {wp' : Nat}
    (h : writeValue c m va v = .ok (m', wp')) : ∃ M', writeValue (c.longer D) M (va + D) v = .ok (M', wp' + D) ∧ Sh D m' M' := by
  cases v with
  | none =>
    unfold writeValue at h ⊢
    obtain ⟨m1, h1, h⟩ := Out.bind_eq_ok h
    cases h
    obtain ⟨M1, k1, k2⟩ := hs.put h1
    refine ⟨M1, ?_, k2⟩
    simp only [Ctx.longer, k1, Out.ok_bind, Out.pure_eq]
    congr 2
    omega
  | text s =>
    unfold writeValue at h ⊢
    obtain ⟨m1, h1, h⟩ := Out.bind_eq_ok h
    obtain ⟨w, h2, h⟩ := Out.bind_eq_ok h
    obtain ⟨m2, h3, h⟩ := Out.bind_eq_ok h
    cases h
    obtain ⟨M1, k1, k2⟩ := hs.put h1
    obtain ⟨M2, k3, k4⟩ := k2.put h3
    refine ⟨M2, ?_, k4⟩
    simp only [Ctx.longer, k1, Out.ok_bind]
    rw [show va + D + 1 = va + 1 + D by omega, fromString_shift hD, h2]
    simp only [Out.bind, Out.ok_bind, k3, Out.pure_eq]
    congr 2
    omega
  | bin t src =>
    unfold writeValue at h ⊢
    unfold NodeOk at hok
    simp only at h hok ⊢
    split at h
    · next ht =>
      obtain ⟨m1, h1, h⟩ := Out.bind_eq_ok h
      cases h
      obtain ⟨M1, k1, k2⟩ := hs.put h1
      refine ⟨M1, ?_, k2⟩
      rw [if_pos ht]
      simp only [Ctx.longer, k1, Out.ok_bind, Out.pure_eq]
      congr 2
      omega
    · next ht =>
      obtain ⟨m1, h1, h⟩ := Out.bind_eq_ok h
      obtain ⟨M1, k1, k2⟩ := hs.put h1
      have hsz : 0 ≤ size2 t (binSize t src) := by
        unfold binSize
        split
        · next hb => rcases hb with rfl | rfl <;> (simp only [size2]; omega)
        · split
          · next hb => subst hb; simp only [size2]; omega
          · exact size2_zero_nonneg hok.1
      have := copyTo_shift hD (limit := c.limit) k2 src t (binSize t src) (va + 1) hsz
      rw [h] at this
      rw [if_neg ht]
      simp only [Ctx.longer, k1, Out.ok_bind]
      rw [show va + D + 1 = va + 1 + D by omega]
      generalize copyTo (c.limit + D) M1 src t (binSize t src) (va + 1 + D) = y at this
      cases this with
      | ok hM => exact ⟨_, rfl, hM⟩

theorem writeParamStr_shift {D : Nat} {c : Ctx} {m M : Mem} (hs : Sh D m M) {x pd : Nat} {v : CStr} {wp : Nat} {m' : Mem} {wp' : Nat}
    (h : writeParamStr c x pd v m wp = .ok (m', wp')) : ∃ M', writeParamStr (c.longer D) (x + D) (pd + D) v M (wp + D) = .ok (M', wp' + D) ∧ Sh D m' M' := by
  unfold writeParamStr at h ⊢
  obtain ⟨m1, h1, h⟩ := Out.bind_eq_ok h
  obtain ⟨m2, h2, h⟩ := Out.bind_eq_ok h
  obtain ⟨m3, h3, h⟩ := Out.bind_eq_ok h
  cases h
  obtain ⟨M1, k1, l1⟩ := hs.put h1
  obtain ⟨M2, k2, l2⟩ := l1.put h2
  obtain ⟨M3, k3, l3⟩ := l2.put h3
  refine ⟨M3, ?_, l3⟩
  simp only [Ctx.longer]
  rw [show pd + D + 2 = pd + 2 + D by omega, k1]
  simp only [Out.ok_bind]
  rw [show pd + D + 4 = pd + 4 + D by omega, show ((wp + D : Nat) : Int) - ((x + D : Nat) : Int) = (wp : Int) - x by omega, k2]
  simp only [Out.ok_bind, k3, Out.pure_eq]
  congr 2
  omega

theorem writeParam_shift {D : Nat} (hD : D % 8 = 0) {c : Ctx} {m M : Mem} (hs : Sh D m M) {x pd : Nat} {p : BStr × SVal} {pt : XBT} (hok : AttrOk pt p.2) {wp : Nat} {m' : Mem} {wp' : Nat}
    (h : writeParam c x pd p m wp = .ok (m', wp')) : ∃ M', writeParam (c.longer D) (x + D) (pd + D) p M (wp + D) = .ok (M', wp' + D) ∧ Sh D m' M' := by
  obtain ⟨name, v⟩ := p
  unfold writeParam at h ⊢
  obtain ⟨m0, h0, h⟩ := Out.bind_eq_ok h
  obtain ⟨M0, k0, hs⟩ := hs.put h0
  rw [show (c.longer D).params = c.params from rfl, show (c.longer D).flt = c.flt from rfl, show (c.longer D).limit = c.limit + D from rfl]
  simp only at k0 h
  simp only
  rw [k0]
  simp only [Out.ok_bind]
  have null : ∀ m' wp', (do let m ← put c.limit m0 (pd + 2) [NULL.code]
                            let m ← put c.limit m (pd + 4) (le32 0)
                            return (m, wp) : Out (Mem × Nat)) = .ok (m', wp') →
      ∃ M', (do let m ← put (c.limit + D) M0 (pd + D + 2) [NULL.code]
                let m ← put (c.limit + D) m (pd + D + 4) (le32 0)
                return (m, wp + D) : Out (Mem × Nat)) = .ok (M', wp' + D) ∧ Sh D m' M' := by
    intro m' wp' h
    obtain ⟨m1, h1, h⟩ := Out.bind_eq_ok h
    obtain ⟨m2, h2, h⟩ := Out.bind_eq_ok h
    cases h
    obtain ⟨M1, k1, l1⟩ := hs.put h1
    obtain ⟨M2, k2, l2⟩ := l1.put h2
    refine ⟨M2, ?_, l2⟩
    rw [show pd + D + 2 = pd + 2 + D by omega, k1]
    simp only [Out.ok_bind]
    rw [show pd + D + 4 = pd + 4 + D by omega, k2]
    rfl
  cases v with
  | none => exact null _ _ h
  | text v =>
    simp only at h ⊢
    by_cases hv : v = []
    · rw [if_pos hv] at h ⊢
      exact null _ _ h
    · rw [if_neg hv] at h ⊢
      obtain ⟨t, ht⟩ : ∃ t, t = detect2 v (if 0 ≤ c.params.find (some name) then c.params.type (c.params.find (some name)).toNat else UNKNOWN) := ⟨_, rfl⟩
      rw [← ht] at h
      rw [← ht]
      by_cases h4 : size2 t 0 = 4
      · rw [if_pos h4] at h ⊢
        rw [show pd + D + 4 = pd + 4 + D by omega, fromString_shift hD]
        cases hf : fromString c.flt v t (pd + 4) c.limit with
        | ok w =>
          rw [hf] at h
          simp only [Out.bind] at h ⊢
          obtain ⟨m1, h1, h⟩ := Out.bind_eq_ok h
          obtain ⟨m2, h2, h⟩ := Out.bind_eq_ok h
          cases h
          obtain ⟨M1, k1, l1⟩ := hs.put h1
          obtain ⟨M2, k2, l2⟩ := l1.put h2
          refine ⟨M2, ?_, l2⟩
          rw [k1]
          simp only [Out.ok_bind]
          rw [show pd + D + 2 = pd + 2 + D by omega, k2]
          rfl
        | fail =>
          rw [hf] at h
          exact writeParamStr_shift hs h
        | ub => rw [hf] at h; cases h
      · rw [if_neg h4] at h ⊢
        exact writeParamStr_shift hs h
  | bin t src =>
    unfold AttrOk at hok
    simp only at h hok ⊢
    by_cases hn : t = NULL
    · rw [if_pos hn] at h ⊢
      exact null _ _ h
    · rw [if_neg hn] at h ⊢
      have outside : ∀ (size : Nat), 0 ≤ size2 t size → ∀ m' wp', (do
            let m ← put c.limit m0 (pd + 2) [t.code]
            let m ← put c.limit m (pd + 4) (le32 (((if xalign t = 4 then aa wp else if xalign t = 8 then aa8 wp else wp : Nat) : Int) - x))
            copyTo c.limit m src t size (if xalign t = 4 then aa wp else if xalign t = 8 then aa8 wp else wp) : Out (Mem × Nat)) = .ok (m', wp') →
          ∃ M', (do
            let m ← put (c.limit + D) M0 (pd + D + 2) [t.code]
            let m ← put (c.limit + D) m (pd + D + 4) (le32 (((if xalign t = 4 then aa (wp + D) else if xalign t = 8 then aa8 (wp + D) else wp + D : Nat) : Int) - (x + D : Nat)))
            copyTo (c.limit + D) m src t size (if xalign t = 4 then aa (wp + D) else if xalign t = 8 then aa8 (wp + D) else wp + D) : Out (Mem × Nat)) = .ok (M', wp' + D) ∧ Sh D m' M' := by
        intro size hsz m' wp' h
        have e : (if xalign t = 4 then aa (wp + D) else if xalign t = 8 then aa8 (wp + D) else wp + D) = (if xalign t = 4 then aa wp else if xalign t = 8 then aa8 wp else wp) + D := by
          rw [aa_shift hD, aa8_shift hD]
          split
          · rfl
          · split <;> rfl
        rw [e]
        generalize (if xalign t = 4 then aa wp else if xalign t = 8 then aa8 wp else wp) = w at h ⊢
        obtain ⟨m1, h1, h⟩ := Out.bind_eq_ok h
        obtain ⟨m2, h2, h⟩ := Out.bind_eq_ok h
        obtain ⟨M1, k1, l1⟩ := hs.put h1
        obtain ⟨M2, k2, l2⟩ := l1.put h2
        rw [show pd + D + 2 = pd + 2 + D by omega, k1]
        simp only [Out.ok_bind]
        rw [show pd + D + 4 = pd + 4 + D by omega, show ((w + D : Nat) : Int) - ((x + D : Nat) : Int) = (w : Int) - x by omega, k2]
        simp only [Out.ok_bind]
        have := copyTo_shift hD (limit := c.limit) l2 src t size w hsz
        rw [h] at this
        generalize copyTo (c.limit + D) M2 src t size (w + D) = y at this
        cases this with
        | ok hM => exact ⟨_, rfl, hM⟩
      have z := size2_zero_nonneg hok.1
      by_cases hvz : isVarsize t = true
      · rw [if_pos hvz] at h ⊢
        have : 0 ≤ size2 t (rdI32 src).toNat := by
          cases t <;> first | exact absurd hvz (by decide) | (simp only [size2]; omega) | (exact absurd rfl hok.2.2.2.1)
        exact outside _ this _ _ h
      · rw [if_neg hvz] at h ⊢
        by_cases hin : t ≠ STRING ∧ size2 t 0 ≤ 4
        · rw [if_pos hin] at h ⊢
          have hcp := copyTo_shift hD (limit := c.limit) hs src t 0 (pd + 4) z
          rw [show pd + D + 4 = pd + 4 + D by omega]
          generalize hc1 : copyTo c.limit m0 src t 0 (pd + 4) = y1 at h hcp
          generalize hc2 : copyTo (c.limit + D) M0 src t 0 (pd + 4 + D) = y2 at hcp ⊢
          cases hcp with
          | ok hM =>
            simp only at h ⊢
            obtain ⟨m2, h2, h⟩ := Out.bind_eq_ok h
            cases h
            obtain ⟨M2, k2, l2⟩ := hM.put h2
            refine ⟨M2, ?_, l2⟩
            rw [show pd + D + 2 = pd + 2 + D by omega, k2]
            rfl
          | fail =>
            simp only at h ⊢
            have := outside _ z _ _ h
            rw [show pd + D + 4 = pd + 4 + D by omega] at this
            exact this
          | ub => cases h
        · rw [if_neg hin] at h ⊢
          exact outside _ z _ _ h

theorem writeParams_shift {D : Nat} (hD : D % 8 = 0) {c : Ctx} {x : Nat} {pt : BStr → XBT} : ∀ (ps : List (BStr × SVal)) {pd : Nat} {m M : Mem} {wp : Nat} {m' : Mem} {wp' : Nat},
    Sh D m M → (∀ p ∈ ps, AttrOk (pt p.1) p.2) → writeParams c x ps pd m wp = .ok (m', wp') →
    ∃ M', writeParams (c.longer D) (x + D) ps (pd + D) M (wp + D) = .ok (M', wp' + D) ∧ Sh D m' M'
  | [], pd, m, M, wp, m', wp', hs, _, h => by cases h; exact ⟨M, rfl, hs⟩
  | p :: ps, pd, m, M, wp, m', wp', hs, hok, h => by
    unfold writeParams at h ⊢
    obtain ⟨⟨m1, w1⟩, h1, h⟩ := Out.bind_eq_ok h
    obtain ⟨M1, k1, l1⟩ := writeParam_shift hD hs (hok p (by simp)) h1
    obtain ⟨M2, k2, l2⟩ := writeParams_shift hD ps l1 (fun q hq => hok q (by simp [hq])) h
    refine ⟨M2, ?_, l2⟩
    rw [k1]
    simp only [Out.ok_bind]
    rw [show pd + D + 8 = pd + 8 + D by omega]
    exact k2

mutual
/-- writing an element `D` bytes further on -/
theorem writeNode_shift {D : Nat} (hD : D % 8 = 0) {c : Ctx} {pt : BStr → XBT} : ∀ (e : Elem) {m M : Mem} {wp : Nat} {m' : Mem} {wp' x : Nat}, Sh D m M → TreeOk pt e →
    writeNode c e m wp = .ok (m', wp', x) → ∃ M', writeNode (c.longer D) e M (wp + D) = .ok (M', wp' + D, x + D) ∧ Sh D m' M'
  | .mk name value params children, m, M, wp, m', wp', x, hs, hok, h => by
    unfold TreeOk at hok
    unfold writeNode at h ⊢
    simp only at h ⊢
    split at h
    · cases h
    · next hcnt =>
      rw [if_neg hcnt]
      obtain ⟨m1, h1, h⟩ := Out.bind_eq_ok h
      obtain ⟨⟨m2, w2⟩, h2, h⟩ := Out.bind_eq_ok h
      obtain ⟨⟨m3, w3⟩, h3, h⟩ := Out.bind_eq_ok h
      obtain ⟨⟨m4, w4⟩, h4, h⟩ := Out.bind_eq_ok h
      obtain ⟨m5, h5, h⟩ := Out.bind_eq_ok h
      simp only [Out.pure_eq, Out.ok.injEq, Prod.mk.injEq] at h
      obtain ⟨rfl, rfl, rfl⟩ := h
      rw [aa_shift hD]
      generalize aa wp = x at *
      simp only at h3 h4 h5 ⊢
      obtain ⟨M1, k1, l1⟩ := hs.put h1
      obtain ⟨M2, k2, l2⟩ := writeValue_shift hD l1 hok.1 h2
      obtain ⟨M3, k3, l3⟩ := writeParams_shift hD params l2 hok.2.1 h3
      obtain ⟨M4, k4, l4⟩ := writeChildren_shift hD children l3 hok.2.2 h4
      obtain ⟨M5, k5, l5⟩ := l4.put h5
      refine ⟨M5, ?_, l5⟩
      rw [show (c.longer D).tags = c.tags from rfl, show (c.longer D).limit = c.limit + D from rfl, k1]
      simp only [Out.ok_bind]
      rw [show x + D + 12 + 8 * params.length + 4 * children.length = x + 12 + 8 * params.length + 4 * children.length + D by omega, k2]
      simp only [Out.ok_bind]
      rw [show x + D + 12 = x + 12 + D by omega, k3]
      simp only [Out.ok_bind]
      rw [show x + 12 + D + 8 * params.length = x + 12 + 8 * params.length + D by omega, k4]
      simp only [Out.ok_bind]
      rw [show x + D + 8 = x + 8 + D by omega, show ((w4 + D : Nat) : Int) - ((x + D : Nat) : Int) = (w4 : Int) - x by omega, k5]
      rfl
theorem writeChildren_shift {D : Nat} (hD : D % 8 = 0) {c : Ctx} {pt : BStr → XBT} {x : Nat} : ∀ (es : List Elem) {ca : Nat} {m M : Mem} {wp : Nat} {m' : Mem} {wp' : Nat}, Sh D m M → TreeOkAll pt es →
    writeChildren c x es ca m wp = .ok (m', wp') → ∃ M', writeChildren (c.longer D) (x + D) es (ca + D) M (wp + D) = .ok (M', wp' + D) ∧ Sh D m' M'
  | [], ca, m, M, wp, m', wp', hs, _, h => by unfold writeChildren at h ⊢; cases h; exact ⟨M, rfl, hs⟩
  | e :: es, ca, m, M, wp, m', wp', hs, hok, h => by
    unfold TreeOkAll at hok
    unfold writeChildren at h ⊢
    obtain ⟨⟨m1, w1, y⟩, h1, h⟩ := Out.bind_eq_ok h
    obtain ⟨m2, h2, h⟩ := Out.bind_eq_ok h
    simp only at h2 h
    obtain ⟨M1, k1, l1⟩ := writeNode_shift hD e hs hok.1 h1
    obtain ⟨M2, k2, l2⟩ := l1.put h2
    obtain ⟨M3, k3, l3⟩ := writeChildren_shift hD es l2 hok.2 h
    refine ⟨M3, ?_, l3⟩
    rw [k1]
    simp only [Out.ok_bind]
    rw [show (c.longer D).limit = c.limit + D from rfl, show ((y + D : Nat) : Int) - ((x + D : Nat) : Int) = (y : Int) - x by omega, k2]
    simp only [Out.ok_bind]
    rw [show ca + D + 4 = ca + 4 + D by omega]
    exact k3
end

end BX
