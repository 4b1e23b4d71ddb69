import Verif.Spec.Handles
/- Lemmas for C84: every object holds what it has taken, and gives back exactly that. -/
namespace BX
open Spec

/-- the descriptors that an object has to close -/
def ownFd : Obj → List Nat
  | .gone => []
  | .reader r => r.fd.toList
  | .json j => j.fd.toList
  | .bw b => b.fd.toList
  | .creator c => c.dst.toList

/-- the mappings that an object has to unmap -/
def ownMap : Obj → List (Nat × Nat)
  | .gone => []
  | .reader r => r.doc.toList.map fun a => (a, pages r.size)
  | .json j => j.source.toList.map fun a => (a, pages j.size.toNat)
  | .bw b => match b.pool with
    | .page a => [(a, pages b.max)]
    | _ => []
  | .creator _ => []

/-- what is known about an object is right -/
def PhaseOk : Obj → Phase → Prop
  | o, .closed => ownFd o = [] ∧ ownMap o = [] ∧ (∀ b, o = .bw b → b.ready = false ∧ b.pool = .null) ∧ o ≠ .gone
  | o, .reading => ∃ r, o = .reader r
  | o, .tried => ∃ b, o = .bw b
  | o, .ready => ∃ b, o = .bw b ∧ b.ready = true
  | o, .parsed n => ∃ j, o = .json j ∧ j.size = n ∧ j.fd = none ∧ (0 < n ∨ j.source = none)
  | o, .appending => ∃ fd, o = .creator ⟨some fd⟩
  | o, .gone => o = .gone

theorem apart_symm {m n : Nat × Nat} (h : Apart m n) : Apart n m := Or.symm h

theorem fine_perm {s t : Sys} (h : Fine s) (hp : s.maps.Perm t.maps) : Fine t :=
  ⟨fun m hm => h.pos m (hp.mem_iff.2 hm), (hp.pairwise_iff apart_symm).1 h.apart⟩

theorem pages_pos {n : Nat} (h : 0 < n) : 0 < pages n := by unfold pages; omega

theorem cut_apart {a n : Nat} {m : Nat × Nat} (hn : 0 < m.2) (h : Apart (a, n) m) : cutMap a n m = [m] := by
  obtain ⟨b, k⟩ := m
  unfold Apart at h
  simp only at h hn
  unfold cutMap
  simp only
  by_cases hc : a + n ≤ b
  · rw [if_neg (by omega), if_pos (by omega), Nat.max_eq_left hc]
    simp
  · rw [if_pos (by omega), if_neg (by omega), Nat.min_eq_left (by omega)]
    rfl

theorem cut_self (a n : Nat) : cutMap a n (a, n) = [] := by
  unfold cutMap
  simp

theorem flatMap_one {l : List (Nat × Nat)} {f : Nat × Nat → List (Nat × Nat)} (h : ∀ m ∈ l, f m = [m]) : l.flatMap f = l := by
  induction l with
  | nil => rfl
  | cons m l ih => rw [List.flatMap_cons, h m (by simp), ih fun x hx => h x (by simp [hx])]; rfl

theorem munmap_spec {s : Sys} {a n : Nat} {R : List (Nat × Nat)} (h : Fine s) (hp : s.maps.Perm ((a, pages n) :: R)) : (s.munmap a n).maps.Perm R ∧ Fine (s.munmap a n) := by
  have h1 : Fine ⟨s.fds, (a, pages n) :: R⟩ := fine_perm h hp
  have h2 := List.pairwise_cons.1 h1.apart
  have e : (((a, pages n) :: R).flatMap (cutMap a (pages n))) = R := by
    rw [List.flatMap_cons, cut_self, List.nil_append]
    exact flatMap_one fun m hm => cut_apart (h1.pos m (by simp [hm])) (h2.1 m hm)
  have hp2 : (s.munmap a n).maps.Perm R := by
    have := hp.flatMap_right (cutMap a (pages n))
    rw [e] at this
    exact this
  exact ⟨hp2, fine_perm (s := ⟨s.fds, R⟩) ⟨fun m hm => h1.pos m (by simp [hm]), h2.2⟩ hp2.symm⟩

theorem mmap_fine {s : Sys} {a n : Nat} (h : Fine s) (hf : Free s a n) : Fine (s.mmap a n) :=
  ⟨by
    intro m hm
    simp only [Sys.mmap, List.mem_cons] at hm
    rcases hm with rfl | hm
    · exact pages_pos hf.1
    · exact h.pos m hm,
   List.pairwise_cons.2 ⟨hf.2, h.apart⟩⟩

theorem close_perm {fds R : List Nat} {fd : Nat} (h : fds.Perm (fd :: R)) : (fds.erase fd).Perm R := by
  have := h.erase fd
  rwa [List.erase_cons_head] at this

/-- what a call does to what the process holds, besides the handles `Rf` and `Rm` of others: the new object, and `n` descriptors that nobody will close -/
def Gives (Rf : List Nat) (Rm : List (Nat × Nat)) (n : Nat) (o : Obj) (q : Phase) (s : Sys) : Prop :=
  Fine s ∧ PhaseOk o q ∧ s.maps.Perm (ownMap o ++ Rm) ∧ ∃ l : List Nat, l.length = n ∧ s.fds.Perm (ownFd o ++ (l ++ Rf))

theorem reader_init {s : Sys} {r : Reader} {k : ReaderAns} {Rf Rm} (hf : Fine s) (hh : ∀ a, k.map = some a → Free s a k.size) (h1 : s.fds.Perm Rf) (h2 : s.maps.Perm Rm)
    (e1 : r.fd = none) (e2 : r.doc = none) : Gives Rf Rm 0 (.reader (r.init k s).2.1) .reading (r.init k s).2.2 := by
  unfold Reader.init
  split
  · exact ⟨hf, ⟨_, rfl⟩, by simpa [ownMap, e2] using h2, [], rfl, by simpa [ownFd, e1] using h1⟩
  · split
    · exact ⟨hf, ⟨_, rfl⟩, by simpa [ownMap, e2] using h2, [], rfl, by simpa [ownFd] using h1⟩
    · rename_i fd _
      split
      · exact ⟨⟨hf.1, hf.2⟩, ⟨_, rfl⟩, by simpa [ownMap, Sys.open] using h2, [], rfl, by simpa [ownFd, Sys.open] using h1⟩
      · rename_i a ha
        refine ⟨mmap_fine (s := s.open fd) ⟨hf.1, hf.2⟩ (hh a ha), ⟨_, rfl⟩, by simpa [ownMap, Sys.open, Sys.mmap] using h2, [], rfl, by simpa [ownFd, Sys.open, Sys.mmap] using h1⟩

theorem reader_fin {s : Sys} {r : Reader} {k : FinAns} {Rf Rm} (hf : Fine s) (hh : k.unmaps = true ∧ k.closes = true) (h1 : s.fds.Perm (ownFd (.reader r) ++ Rf))
    (h2 : s.maps.Perm (ownMap (.reader r) ++ Rm)) : Gives Rf Rm 0 (.reader (r.fin k s).2.1) .closed (r.fin k s).2.2 := by
  obtain ⟨fd, doc, size⟩ := r
  unfold Reader.fin
  simp only [hh.1, hh.2, if_true]
  cases doc with
  | none =>
    cases fd with
    | none => exact ⟨hf, ⟨rfl, rfl, by simp, by simp⟩, h2, [], rfl, h1⟩
    | some fd => exact ⟨⟨hf.1, hf.2⟩, ⟨rfl, rfl, by simp, by simp⟩, h2, [], rfl, close_perm h1⟩
  | some a =>
    have m := munmap_spec hf h2
    cases fd with
    | none => exact ⟨m.2, ⟨rfl, rfl, by simp, by simp⟩, m.1, [], rfl, h1⟩
    | some fd => exact ⟨⟨m.2.1, m.2.2⟩, ⟨rfl, rfl, by simp, by simp⟩, m.1, [], rfl, close_perm h1⟩

theorem json_init {s : Sys} {j : JsonObj} {k : JsonAns} {Rf Rm} (hf : Fine s) (hh : ∀ a, k.map = some a → Free s a k.size.toNat) (h1 : s.fds.Perm Rf) (h2 : s.maps.Perm Rm)
    (e1 : j.fd = none) (e2 : j.source = none) : Gives Rf Rm (opensJson (.jsonInit k)) (.json (j.init k s).2.1) (.parsed k.size) (j.init k s).2.2 := by
  obtain ⟨fd, source, size⟩ := j
  simp only at e1 e2
  subst e1; subst e2
  unfold JsonObj.init opensJson
  simp only
  by_cases hs : k.size ≤ 0
  · rw [if_pos hs, if_neg (by omega)]
    exact ⟨hf, ⟨_, rfl, rfl, rfl, Or.inr rfl⟩, h2, [], rfl, h1⟩
  · rw [if_neg hs]
    cases hk : k.fd with
    | none =>
      rw [if_neg (by simp)]
      exact ⟨hf, ⟨_, rfl, rfl, rfl, Or.inr rfl⟩, h2, [], rfl, h1⟩
    | some fd =>
      rw [if_pos ⟨by omega, rfl⟩]
      cases hm : k.map with
      | none => exact ⟨⟨hf.1, hf.2⟩, ⟨_, rfl, rfl, rfl, Or.inr rfl⟩, h2, [fd], rfl, h1.cons fd⟩
      | some a => exact ⟨mmap_fine (s := s.open fd) ⟨hf.1, hf.2⟩ (hh a hm), ⟨_, rfl, rfl, rfl, Or.inl (by omega)⟩, h2.cons _, [fd], rfl, h1.cons fd⟩

theorem json_kill {s : Sys} {j : JsonObj} {Rf Rm} (hf : Fine s) (h1 : s.fds.Perm (ownFd (.json j) ++ Rf)) (h2 : s.maps.Perm (ownMap (.json j) ++ Rm)) (e1 : j.fd = none)
    (e2 : 0 < j.size ∨ j.source = none) : Gives Rf Rm 0 .gone .gone (j.kill s) := by
  obtain ⟨fd, source, size⟩ := j
  simp only at e1 e2
  subst e1
  unfold JsonObj.kill
  simp only
  cases source with
  | none => exact ⟨hf, rfl, h2, [], rfl, h1⟩
  | some a =>
    have m := munmap_spec hf h2
    simp only [if_neg (show ¬ size ≤ 0 by simpa using e2)]
    exact ⟨m.2, rfl, m.1, [], rfl, h1⟩

theorem bw_fin {s : Sys} {b : BwObj} {Rf Rm} (hf : Fine s) (h1 : s.fds.Perm (ownFd (.bw b) ++ Rf)) (h2 : s.maps.Perm (ownMap (.bw b) ++ Rm)) :
    Gives Rf Rm 0 (.bw (b.fin s).1) .closed (b.fin s).2 ∧ Gives Rf Rm 0 .gone .gone (b.fin s).2 := by
  obtain ⟨fd, pool, max, ready⟩ := b
  unfold BwObj.fin
  have done : ∀ s : Sys, Fine s → s.fds.Perm Rf → s.maps.Perm Rm → Gives Rf Rm 0 (.bw ⟨none, .null, max, false⟩) .closed s ∧ Gives Rf Rm 0 .gone .gone s := by
    intro s hf h1 h2
    exact ⟨⟨hf, ⟨rfl, rfl, by rintro b ⟨⟩; exact ⟨rfl, rfl⟩, by simp⟩, h2, [], rfl, h1⟩, ⟨hf, rfl, h2, [], rfl, h1⟩⟩
  cases fd with
  | none =>
    cases pool with
    | null => exact done s hf h1 h2
    | failed => exact done s hf h1 h2
    | page a => exact done (s.munmap a max) (munmap_spec hf h2).2 h1 (munmap_spec hf h2).1
  | some fd =>
    have hf' : Fine (s.close fd) := ⟨hf.1, hf.2⟩
    cases pool with
    | null => exact done (s.close fd) hf' (close_perm h1) h2
    | failed => exact done (s.close fd) hf' (close_perm h1) h2
    | page a => exact done ((s.close fd).munmap a max) (munmap_spec (s := s.close fd) hf' h2).2 (close_perm h1) (munmap_spec (s := s.close fd) hf' h2).1

/-- the loop leaves the document with at most one mapping -/
theorem bw_passes {k : BwAns} {Rm} : ∀ (n : Nat) (b : BwObj) (s : Sys), Fine s → s.maps.Perm Rm → b.pool = .null → (n = 1 ∨ n = 2) →
    (∀ a, k.map (2 - n) = some a → Free s a b.max) → (n = 2 → ∀ s' : Sys, s'.maps.Perm Rm → ∀ a, k.map 1 = some a → Free s' a (k.msize 0)) →
    Fine (b.passes k n s).2.2 ∧ (b.passes k n s).2.2.maps.Perm (ownMap (.bw (b.passes k n s).2.1) ++ Rm) ∧ (b.passes k n s).2.2.fds = s.fds ∧ (b.passes k n s).2.1.fd = b.fd := by
  intro n
  induction n with
  | zero => intro b s _ _ _ h; omega
  | succ n ih =>
    intro b s hf h2 hb hn hh hh2
    obtain ⟨fd, pool, max, ready⟩ := b
    simp only at hb
    subst hb
    unfold BwObj.passes
    simp only
    have ei : 2 - (n + 1) = 1 - n := by omega
    rw [ei] at hh
    cases hm : k.map (1 - n) with
    | none => exact ⟨hf, h2, rfl, rfl⟩
    | some a =>
      have hf2 := mmap_fine hf (hh a hm)
      simp only
      split
      · exact ⟨hf2, h2.cons _, rfl, rfl⟩
      · split
        · exact ⟨hf2, h2.cons _, rfl, rfl⟩
        · split
          · exact ⟨hf2, h2.cons _, rfl, rfl⟩
          · have m := munmap_spec (R := Rm) hf2 (h2.cons _)
            split
            · rename_i hi
              have hn1 : n = 1 := by omega
              subst hn1
              have := ih ⟨fd, .null, k.msize (1 - 1), ready⟩ ((s.mmap a max).munmap a max) m.2 m.1 rfl (Or.inl rfl) (by intro c hc; simpa using hh2 rfl ((s.mmap a max).munmap a max) m.1 c hc) (by omega)
              exact this
            · exact ⟨m.2, m.1, rfl, rfl⟩

theorem bw_init {s : Sys} {b : BwObj} {k : BwAns} {Rf Rm} (hf : Fine s) (hh : (∀ a, k.map 0 = some a → Free s a b.max) ∧ ∀ a, k.map 1 = some a → Free s a (k.msize 0))
    (h1 : s.fds.Perm Rf) (h2 : s.maps.Perm Rm) (e1 : b.fd = none) (e2 : b.pool = .null) (e3 : b.ready = false) :
    Gives Rf Rm 0 (.bw (b.init k s).2.1) (if (b.init k s).1 then .ready else .tried) (b.init k s).2.2 := by
  obtain ⟨fd, pool, max, ready⟩ := b
  simp only at e1 e2 e3
  subst e1; subst e2; subst e3
  unfold BwObj.init
  rw [if_neg (by simp)]
  cases hk : k.fd with
  | none => exact ⟨hf, ⟨_, rfl⟩, h2, [], rfl, h1⟩
  | some fd =>
    simp only
    split
    · exact ⟨⟨hf.1, hf.2⟩, ⟨_, rfl⟩, h2, [], rfl, h1.cons fd⟩
    · have hp := bw_passes (k := k) (Rm := Rm) 2 ⟨some fd, .null, max, false⟩ (s.open fd) ⟨hf.1, hf.2⟩ h2 rfl (Or.inr rfl) hh.1
        (fun _ s' hs a ha => ⟨(hh.2 a ha).1, fun m hm => (hh.2 a ha).2 m (h2.mem_iff.2 (hs.mem_iff.1 hm))⟩)
      obtain ⟨p1, p2, p3, p4⟩ := hp
      have hfd : (BwObj.passes k 2 ⟨some fd, .null, max, false⟩ (s.open fd)).2.2.fds.Perm (fd :: Rf) := by rw [p3]; exact h1.cons fd
      generalize BwObj.passes k 2 ⟨some fd, .null, max, false⟩ (s.open fd) = r at p1 p2 p3 p4 hfd
      obtain ⟨r1, b, s'⟩ := r
      simp only at p4 p2 p1 hfd
      have hfd' : s'.fds.Perm (ownFd (.bw b) ++ ([] ++ Rf)) := by simpa [ownFd, p4] using hfd
      split
      · exact ⟨p1, ⟨_, rfl⟩, p2, [], rfl, hfd'⟩
      · split
        · exact ⟨p1, ⟨_, rfl⟩, p2, [], rfl, hfd'⟩
        · exact ⟨p1, ⟨_, rfl, rfl⟩, p2, [], rfl, hfd'⟩

/-- a call that is allowed takes and gives back what belongs to its object -/
theorem act_spec {s s' : Sys} {o o' : Obj} {a : Act} {r : Bool} {p q : Phase} {Rf Rm} (hf : Fine s) (hp : PhaseOk o p) (hh : Honest s o a) (ha : o.act s a = some (r, o', s'))
    (hn : next p a r = some q) (h1 : s.fds.Perm (ownFd o ++ Rf)) (h2 : s.maps.Perm (ownMap o ++ Rm)) : Gives Rf Rm (opensJson a) o' q s' := by
  cases o with
  | gone => cases a <;> simp [Obj.act] at ha
  | reader x =>
    cases a <;> simp only [Obj.act, Option.some.injEq, Prod.mk.injEq, reduceCtorEq] at ha
    case readerInit k =>
      obtain ⟨rfl, rfl, rfl⟩ := ha
      cases p <;> simp only [next, reduceCtorEq, Option.some.injEq] at hn
      subst hn
      obtain ⟨p1, p2, -⟩ := hp
      have e1 : x.fd = none := by simpa [ownFd] using p1
      have e2 : x.doc = none := by simpa [ownMap] using p2
      rw [p1] at h1; rw [p2] at h2
      exact reader_init hf hh h1 h2 e1 e2
    case readerFin k =>
      obtain ⟨rfl, rfl, rfl⟩ := ha
      cases p <;> simp only [next, reduceCtorEq, Option.some.injEq] at hn <;> subst hn <;> exact reader_fin hf hh h1 h2
    case kill =>
      obtain ⟨rfl, rfl, rfl⟩ := ha
      cases p <;> simp only [next, reduceCtorEq, Option.some.injEq] at hn <;> subst hn
      case closed =>
        obtain ⟨p1, p2, -⟩ := hp
        rw [p1] at h1; rw [p2] at h2
        exact ⟨hf, rfl, h2, [], rfl, h1⟩
      case tried => obtain ⟨b, hb⟩ := hp; cases hb
      case ready => obtain ⟨b, hb, -⟩ := hp; cases hb
      case parsed => obtain ⟨b, hb, -⟩ := hp; cases hb
      case appending => obtain ⟨b, hb⟩ := hp; cases hb
  | json x =>
    cases a <;> simp only [Obj.act, Option.some.injEq, Prod.mk.injEq, reduceCtorEq] at ha
    case jsonInit k =>
      obtain ⟨rfl, rfl, rfl⟩ := ha
      cases p <;> simp only [next, reduceCtorEq, Option.some.injEq] at hn
      subst hn
      obtain ⟨p1, p2, -⟩ := hp
      have e1 : x.fd = none := by simpa [ownFd] using p1
      have e2 : x.source = none := by simpa [ownMap] using p2
      rw [p1] at h1; rw [p2] at h2
      exact json_init hf hh h1 h2 e1 e2
    case jsonUpdate n =>
      obtain ⟨rfl, rfl, rfl⟩ := ha
      cases p <;> simp only [next, reduceCtorEq, Option.some.injEq] at hn
      case closed =>
        subst hn
        obtain ⟨p1, p2, -⟩ := hp
        have e1 : x.fd = none := by simpa [ownFd] using p1
        have e2 : x.source = none := by simpa [ownMap] using p2
        exact ⟨hf, ⟨by simp [ownFd, JsonObj.update, e1], by simp [ownMap, JsonObj.update, e2], by simp, by simp⟩, by simpa [ownMap, JsonObj.update, e2] using h2, [], rfl, by simpa [ownFd, JsonObj.update, e1] using h1⟩
      case parsed m =>
        split at hn
        · rename_i hm
          cases hn
          subst hm
          obtain ⟨j, hj, j1, j2, j3⟩ := hp
          cases hj
          have : x.update n = x := by unfold JsonObj.update; rw [← j1]
          rw [this]
          exact ⟨hf, ⟨x, rfl, j1, j2, j3⟩, h2, [], rfl, h1⟩
        · cases hn
    case kill =>
      obtain ⟨rfl, rfl, rfl⟩ := ha
      cases p <;> simp only [next, reduceCtorEq, Option.some.injEq] at hn <;> subst hn
      case closed =>
        obtain ⟨p1, p2, -⟩ := hp
        have e1 : x.fd = none := by simpa [ownFd] using p1
        have e2 : x.source = none := by simpa [ownMap] using p2
        exact json_kill hf h1 h2 e1 (Or.inr e2)
      case tried => obtain ⟨b, hb⟩ := hp; cases hb
      case ready => obtain ⟨b, hb, -⟩ := hp; cases hb
      case parsed n =>
        obtain ⟨j, hj, j1, j2, j3⟩ := hp
        cases hj
        exact json_kill hf h1 h2 j2 (by rw [j1]; exact j3)
      case appending => obtain ⟨b, hb⟩ := hp; cases hb
  | bw x =>
    cases a <;> simp only [Obj.act, Option.some.injEq, Prod.mk.injEq, reduceCtorEq] at ha
    case bwInit k =>
      obtain ⟨rfl, rfl, rfl⟩ := ha
      cases p <;> simp only [next, reduceCtorEq, Option.some.injEq] at hn
      case closed =>
        subst hn
        obtain ⟨p1, p2, p3, -⟩ := hp
        have e1 : x.fd = none := by simpa [ownFd] using p1
        rw [p1] at h1; rw [p2] at h2
        exact bw_init hf hh h1 h2 e1 (p3 x rfl).2 (p3 x rfl).1
      case ready =>
        subst hn
        obtain ⟨b, hb, hr⟩ := hp
        cases hb
        have : x.init k s = (true, x, s) := by unfold BwObj.init; rw [if_pos hr]
        rw [this]
        exact ⟨hf, ⟨x, rfl, hr⟩, h2, [], rfl, h1⟩
    case bwSetMax n =>
      obtain ⟨rfl, rfl, rfl⟩ := ha
      cases p <;> simp only [next, reduceCtorEq, Option.some.injEq] at hn <;> subst hn
      case closed =>
        obtain ⟨p1, p2, p3, -⟩ := hp
        obtain ⟨hr, hx⟩ := p3 x rfl
        have : x.setMax n = (true, { x with max := n }) := by unfold BwObj.setMax; rw [if_neg (by simp [hr])]
        rw [this]
        have e : ownMap (.bw { x with max := n }) = [] := by
          simp [ownMap, hx]
        refine ⟨hf, ⟨p1, e, by rintro b ⟨⟩; exact ⟨hr, hx⟩, by simp⟩, ?_, [], rfl, h1⟩
        rw [e]; rw [p2] at h2; exact h2
      case ready =>
        obtain ⟨b, hb, hr⟩ := hp
        cases hb
        have : x.setMax n = (false, x) := by unfold BwObj.setMax; rw [if_pos hr]
        rw [this]
        exact ⟨hf, ⟨x, rfl, hr⟩, h2, [], rfl, h1⟩
    case bwFin =>
      obtain ⟨rfl, rfl, rfl⟩ := ha
      cases p <;> simp only [next, reduceCtorEq, Option.some.injEq] at hn <;> subst hn <;> exact (bw_fin hf h1 h2).1
    case kill =>
      obtain ⟨rfl, rfl, rfl⟩ := ha
      cases p <;> simp only [next, reduceCtorEq, Option.some.injEq] at hn <;> subst hn <;> exact (bw_fin hf h1 h2).2
  | creator x =>
    cases a <;> simp only [Obj.act, Option.some.injEq, Prod.mk.injEq, reduceCtorEq] at ha
    case append fd =>
      obtain ⟨rfl, rfl, rfl⟩ := ha
      obtain ⟨dst⟩ := x
      cases p <;> simp only [next, reduceCtorEq, Option.some.injEq] at hn <;> subst hn
      case closed =>
        obtain ⟨p1, -⟩ := hp
        have e1 : dst = none := by simpa [ownFd] using p1
        subst e1
        cases fd with
        | none => exact ⟨hf, ⟨rfl, rfl, by simp, by simp⟩, h2, [], rfl, h1⟩
        | some fd => exact ⟨⟨hf.1, hf.2⟩, ⟨fd, rfl⟩, h2, [], rfl, h1.cons fd⟩
      case appending =>
        obtain ⟨fd', hx⟩ := hp
        cases hx
        exact ⟨hf, ⟨fd', rfl⟩, h2, [], rfl, h1⟩
    case write fd =>
      obtain ⟨rfl, rfl, rfl⟩ := ha
      have hw : (creatorWrite fd s) = s := by
        cases fd with
        | none => rfl
        | some fd => simp [creatorWrite, Sys.open, Sys.close]
      rw [hw]
      cases p <;> simp only [next, reduceCtorEq, Option.some.injEq] at hn <;> subst hn <;> exact ⟨hf, hp, h2, [], rfl, h1⟩
    case kill =>
      obtain ⟨rfl, rfl, rfl⟩ := ha
      have hk : Gives Rf Rm 0 .gone .gone (x.kill s) := by
        obtain ⟨dst⟩ := x
        cases dst with
        | none => exact ⟨hf, rfl, h2, [], rfl, h1⟩
        | some fd => exact ⟨⟨hf.1, hf.2⟩, rfl, h2, [], rfl, close_perm h1⟩
      cases p <;> simp only [next, reduceCtorEq, Option.some.injEq] at hn <;> subst hn <;> exact hk

theorem flatMap_at {β : Type} {f : Obj → List β} {o : Obj} : ∀ {os : List Obj} {i : Nat}, os[i]? = some o →
    (os.flatMap f).Perm (f o ++ (os.eraseIdx i).flatMap f) ∧ ∀ o', ((os.set i o').flatMap f).Perm (f o' ++ (os.eraseIdx i).flatMap f)
  | [], i, h => by simp at h
  | x :: os, 0, h => by
    simp only [List.getElem?_cons_zero, Option.some.injEq] at h
    subst h
    exact ⟨List.Perm.refl _, fun o' => List.Perm.refl _⟩
  | x :: os, i+1, h => by
    rw [List.getElem?_cons_succ] at h
    obtain ⟨h1, h2⟩ := flatMap_at (f := f) h
    have key : ∀ (A : List β) (l : List Obj), (l.flatMap f).Perm (A ++ (os.eraseIdx i).flatMap f) → ((x :: l).flatMap f).Perm (A ++ ((x :: os).eraseIdx (i+1)).flatMap f) := by
      intro A l hl
      rw [List.eraseIdx_cons_succ, List.flatMap_cons, List.flatMap_cons]
      refine (List.Perm.append_left _ hl).trans ?_
      rw [← List.append_assoc, ← List.append_assoc]
      exact List.Perm.append_right _ List.perm_append_comm
    exact ⟨key _ _ h1, fun o' => key _ _ (h2 o')⟩

theorem life_inv {s0 s : Sys} {os : List Obj} {ps : List Phase} {n : Nat} (h0 : Fine s0) (h : Life s0 s os ps n) :
    Fine s ∧ os.length = ps.length ∧ (∀ (i : Nat) o p, os[i]? = some o → ps[i]? = some p → PhaseOk o p) ∧ s.maps.Perm (os.flatMap ownMap ++ s0.maps) ∧
      ∃ l : List Nat, l.length = n ∧ s.fds.Perm (os.flatMap ownFd ++ (l ++ s0.fds)) := by
  induction h with
  | start => exact ⟨h0, rfl, by simp, List.Perm.refl _, [], rfl, List.Perm.refl _⟩
  | @make s os ps n o h hn ih =>
    obtain ⟨i1, i2, i3, i4, l, i5, i6⟩ := ih
    have ho : ownFd o = [] ∧ ownMap o = [] ∧ (∀ b, o = .bw b → b.ready = false ∧ b.pool = .null) ∧ o ≠ .gone := by
      rcases hn with rfl | rfl | ⟨m, rfl⟩ | rfl
      · exact ⟨rfl, rfl, by simp, by simp⟩
      · exact ⟨rfl, rfl, by simp, by simp⟩
      · exact ⟨rfl, rfl, by rintro b ⟨⟩; exact ⟨rfl, rfl⟩, by simp⟩
      · exact ⟨rfl, rfl, by simp, by simp⟩
    refine ⟨i1, by simp [i2], fun i o' p ho' hp => ?_, by simpa [ho.2.1] using i4, l, i5, by simpa [ho.1] using i6⟩
    by_cases hi : i < os.length
    · rw [List.getElem?_append_left hi] at ho'
      rw [List.getElem?_append_left (by omega)] at hp
      exact i3 i o' p ho' hp
    · rw [List.getElem?_append_right (by omega)] at ho'
      rw [List.getElem?_append_right (by omega)] at hp
      rw [← i2] at hp
      cases hk : i - os.length with
      | zero =>
        rw [hk] at ho' hp
        simp only [List.getElem?_cons_zero, Option.some.injEq] at ho' hp
        subst ho'; subst hp
        exact ho
      | succ k => rw [hk] at ho'; simp at ho'
  | @act s os ps n o p r o' s' q i a h ho hp hh ha hq ih =>
    obtain ⟨i1, i2, i3, i4, l, i5, i6⟩ := ih
    have f1 := flatMap_at (f := ownFd) ho
    have f2 := flatMap_at (f := ownMap) ho
    have p1 : s.fds.Perm (ownFd o ++ ((os.eraseIdx i).flatMap ownFd ++ (l ++ s0.fds))) := by
      refine i6.trans ((List.Perm.append_right _ f1.1).trans ?_)
      rw [List.append_assoc]
    have p2 : s.maps.Perm (ownMap o ++ ((os.eraseIdx i).flatMap ownMap ++ s0.maps)) := by
      refine i4.trans ((List.Perm.append_right _ f2.1).trans ?_)
      rw [List.append_assoc]
    obtain ⟨d1, d2, d3, l', d4, d5⟩ := act_spec i1 (i3 i o p ho hp) hh ha hq p1 p2
    refine ⟨d1, by simp [i2], fun j x y hx hy => ?_, ?_, l' ++ l, by simp [d4, i5]; omega, ?_⟩
    · by_cases hj : i = j
      · subst hj
        have e1 : o' = x := by
          rw [List.getElem?_set_self (by have := List.getElem?_eq_some_iff.1 ho; exact this.1)] at hx
          exact Option.some.inj hx
        have e2 : q = y := by
          rw [List.getElem?_set_self (by have := List.getElem?_eq_some_iff.1 hp; exact this.1)] at hy
          exact Option.some.inj hy
        subst e1; subst e2
        exact d2
      · rw [List.getElem?_set_ne hj] at hx hy
        exact i3 j x y hx hy
    · refine d3.trans ?_
      rw [← List.append_assoc]
      exact List.Perm.append_right _ (f2.2 o').symm
    · refine d5.trans ?_
      have e : ((os.set i o').flatMap ownFd ++ (l' ++ l ++ s0.fds)).Perm ((ownFd o' ++ (os.eraseIdx i).flatMap ownFd) ++ (l' ++ l ++ s0.fds)) := List.Perm.append_right _ (f1.2 o')
      refine List.Perm.trans ?_ e.symm
      have hc : (l' ++ (os.eraseIdx i).flatMap ownFd).Perm ((os.eraseIdx i).flatMap ownFd ++ l') := List.perm_append_comm
      simpa only [List.append_assoc] using (hc.append_right (l ++ s0.fds)).append_left (ownFd o')

theorem phase_owns {o : Obj} {p : Phase} (h : PhaseOk o p) : (ownFd o).length ≤ (if p.done then 0 else 1) ∧ (ownMap o).length ≤ (if p.done then 0 else 1) := by
  have any : (ownFd o).length ≤ 1 ∧ (ownMap o).length ≤ 1 := by
    cases o with
    | gone => simp [ownFd, ownMap]
    | reader r => obtain ⟨a, b, c⟩ := r; cases a <;> cases b <;> simp [ownFd, ownMap]
    | json r => obtain ⟨a, b, c⟩ := r; cases a <;> cases b <;> simp [ownFd, ownMap]
    | bw r => obtain ⟨a, b, c, d⟩ := r; cases a <;> cases b <;> simp [ownFd, ownMap]
    | creator r => obtain ⟨a⟩ := r; cases a <;> simp [ownFd, ownMap]
  cases p with
  | gone => cases h; simp [ownFd, ownMap, Phase.done]
  | closed => obtain ⟨h1, h2, -⟩ := h; simp [h1, h2, Phase.done]
  | _ => exact any

theorem owns_length : ∀ (os : List Obj) (ps : List Phase), os.length = ps.length → (∀ (i : Nat) o p, os[i]? = some o → ps[i]? = some p → PhaseOk o p) →
    (os.flatMap ownFd).length ≤ (ps.filter fun p => !p.done).length ∧ (os.flatMap ownMap).length ≤ (ps.filter fun p => !p.done).length
  | [], [], _, _ => by simp
  | [], _ :: _, h, _ => by simp at h
  | _ :: _, [], h, _ => by simp at h
  | o :: os, p :: ps, hl, h => by
    have ih := owns_length os ps (by simpa using hl) fun i x y hx hy => h (i + 1) x y hx hy
    have hp := phase_owns (h 0 o p rfl rfl)
    cases hd : p.done <;> simp [hd] at hp ⊢ <;> constructor <;> simp_all <;> omega

/-- what is left of the mappings does not overlap the pages that were unmapped -/
theorem cut_away {a n : Nat} {m x : Nat × Nat} (hx : x ∈ cutMap a n m) : Apart (a, n) x := by
  obtain ⟨b, k⟩ := m
  unfold cutMap at hx
  simp only [List.mem_append] at hx
  unfold Apart
  rcases hx with hx | hx
  · split at hx
    · simp only [List.mem_singleton] at hx
      subst hx
      simp only
      omega
    · cases hx
  · split at hx
    · simp only [List.mem_singleton] at hx
      subst hx
      simp only
      omega
    · cases hx

theorem munmap_away {s : Sys} {a n : Nat} {x : Nat × Nat} (hx : x ∈ (s.munmap a n).maps) : Apart (a, pages n) x := by
  obtain ⟨m, -, h⟩ := List.mem_flatMap.1 hx
  exact cut_away h

/-- there are always free pages -/
theorem free_above (s : Sys) (size : Nat) (h : 0 < size) : ∃ a, Free s a size := by
  obtain ⟨maps, hm⟩ : ∃ l, l = s.maps := ⟨_, rfl⟩
  have : ∀ l : List (Nat × Nat), ∃ a, ∀ m ∈ l, m.1 + m.2 ≤ a := by
    intro l
    induction l with
    | nil => exact ⟨0, by simp⟩
    | cons x l ih =>
      obtain ⟨a, ha⟩ := ih
      refine ⟨a + (x.1 + x.2), fun m hm => ?_⟩
      rcases List.mem_cons.1 hm with rfl | hm
      · omega
      · have := ha m hm; omega
  obtain ⟨a, ha⟩ := this s.maps
  exact ⟨a, h, fun m hm => Or.inr (ha m hm)⟩

theorem takes_mem {q : Nat × Alloc} (hq : q.2 = .newArr) (c : CreatorMem) (h : List (Nat × Alloc)) (hm : q ∈ creatorTakes c h) : q ∈ h := by
  have names : ∀ (l : List Nat) (h : List (Nat × Alloc)), q ∈ l.foldl heapMalloc h → q ∈ h := by
    intro l
    induction l with
    | nil => exact fun h hm => hm
    | cons x l ih =>
      intro h hm
      rcases List.mem_cons.1 (ih _ hm) with e | e
      · rw [e] at hq; cases hq
      · exact e
  have tabs : ∀ (l : List (Nat × Nat × List Nat)) (h : List (Nat × Alloc)), q ∈ l.foldl (fun h t => t.2.2.foldl heapMalloc (heapMalloc (heapMalloc h t.1) t.2.1)) h → q ∈ h := by
    intro l
    induction l with
    | nil => exact fun h hm => hm
    | cons x l ih =>
      intro h hm
      rcases List.mem_cons.1 (names _ _ (ih _ hm)) with e | e
      · rw [e] at hq; cases hq
      · rcases List.mem_cons.1 e with e | e
        · rw [e] at hq; cases hq
        · exact e
  rcases List.mem_cons.1 hm with e | e
  · rw [e] at hq; cases hq
  · exact tabs _ _ e

theorem freeAll_sub {q : Nat × Alloc} : ∀ (l : List Nat) (h h' : List (Nat × Alloc)), freeAll l h = .ok h' → q ∈ h' → q ∈ h
  | [], h, h', e, hq => by cases e; exact hq
  | p :: ps, h, h', e, hq => by
    unfold freeAll heapFree at e
    split at e
    · exact List.mem_of_mem_erase (freeAll_sub ps _ h' e hq)
    · cases e

theorem freeAll_keeps {q : Nat × Alloc} : ∀ (l : List Nat) (h h' : List (Nat × Alloc)), freeAll l h = .ok h' → q.1 ∉ l → q ∈ h → q ∈ h'
  | [], h, h', e, _, hq => by cases e; exact hq
  | p :: ps, h, h', e, hn, hq => by
    unfold freeAll heapFree at e
    split at e
    · refine freeAll_keeps ps _ h' e (by simp at hn; exact hn.2) ((List.mem_erase_of_ne ?_).2 hq)
      rintro rfl
      simp at hn
    · cases e

theorem delete_keeps {lax : Bool} {q : Nat × Alloc} {h h' : List (Nat × Alloc)} {p : Nat} (e : heapDelete lax h p = .ok h') (hn : q.1 ≠ p) (hq : q ∈ h) : q ∈ h' := by
  unfold heapDelete at e
  split at e
  · cases e
    refine (List.mem_erase_of_ne ?_).2 hq
    rintro rfl; exact hn rfl
  · split at e
    · cases e
      refine (List.mem_erase_of_ne ?_).2 hq
      rintro rfl; exact hn rfl
    · cases e

theorem freeAll_not_fail : ∀ (l : List Nat) (h : List (Nat × Alloc)), freeAll l h ≠ .fail
  | [], h => by simp [freeAll]
  | p :: ps, h => by
    unfold freeAll heapFree
    split
    · exact freeAll_not_fail ps _
    · simp

end BX
