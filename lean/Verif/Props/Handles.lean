import Verif.Lemmas.Handles
import Verif.Lemmas.Image
/-
C84: the descriptors and mappings that the objects of the library take are given back when they are finalized or destroyed, and nothing else is.
-/
namespace BX
open Spec

/-- C84: at any time of a history, what the process held before is still held, and there are not more descriptors and mappings besides than objects that are initialized (and descriptors of JSON
files, which are never closed, C84_json_false). -/
theorem C84_held_partial (s0 s : Sys) (os : List Obj) (ps : List Phase) (n : Nat) (h0 : Fine s0) (h : Life s0 s os ps n) :
    (∃ fds, s.fds.Perm (fds ++ s0.fds) ∧ fds.length ≤ (ps.filter fun p => !p.done).length + n) ∧ ∃ maps, s.maps.Perm (maps ++ s0.maps) ∧ maps.length ≤ (ps.filter fun p => !p.done).length := by
  obtain ⟨-, i2, i3, i4, l, i5, i6⟩ := life_inv h0 h
  have hl := owns_length os ps i2 i3
  refine ⟨⟨os.flatMap ownFd ++ l, by rw [List.append_assoc]; exact i6, by rw [List.length_append, i5]; have := hl.1; omega⟩, ⟨_, i4, hl.2⟩⟩

/-- C84: when all objects are finalized or destroyed, the process holds the mappings that it held before, and the descriptors that it held before together with one for every JSON file that was
opened. -/
theorem C84_back_partial (s0 s : Sys) (os : List Obj) (ps : List Phase) (n : Nat) (h0 : Fine s0) (h : Life s0 s os ps n) (hd : ∀ p ∈ ps, p.done = true) :
    s.maps.Perm s0.maps ∧ ∃ lost, lost.length = n ∧ s.fds.Perm (lost ++ s0.fds) := by
  obtain ⟨-, i2, i3, i4, l, i5, i6⟩ := life_inv h0 h
  have hl := owns_length os ps i2 i3
  have hz : (ps.filter fun p => !p.done) = [] := List.filter_eq_nil_iff.2 fun p hp => by simp [hd p hp]
  rw [hz] at hl
  have e1 : os.flatMap ownFd = [] := List.length_eq_zero_iff.1 (by simpa using hl.1)
  have e2 : os.flatMap ownMap = [] := List.length_eq_zero_iff.1 (by simpa using hl.2)
  rw [e1] at i6
  rw [e2] at i4
  exact ⟨i4, l, i5, i6⟩

/-- a reader and a document that are used one after the other and interleaved, and a JSON source: what is held at the end -/
example : ∃ s os ps, Life ⟨[0, 1, 2], [(1, 5)]⟩ s os ps 1 ∧ s = ⟨[5, 0, 1, 2], [(1, 5)]⟩ ∧ ps = [.closed, .gone, .gone] := by
  have l0 := (((Life.start (s0 := ⟨[0, 1, 2], [(1, 5)]⟩)).make (.reader Reader.new) (Or.inl rfl)).make (.bw (BwObj.new 8192)) (Or.inr (Or.inr (Or.inl ⟨_, rfl⟩)))).make
    (.json JsonObj.new) (Or.inr (Or.inl rfl))
  have l1 := l0.act 0 (.readerInit ⟨true, some 3, 4097, some 10, true⟩) rfl rfl (by rintro a ⟨⟩; exact ⟨by decide, by simp [Apart]⟩) rfl rfl
  have l2 := l1.act 1 (.bwInit ⟨some 4, true, fun i => some (20 + i), fun _ => true, false, fun _ => 5000, true⟩) rfl rfl
    ⟨by rintro a ⟨⟩; exact ⟨by decide, by simp [Apart, pages, Reader.init, Sys.open, Sys.mmap]⟩, by rintro a ⟨⟩; exact ⟨by decide, by simp [Apart, pages, Reader.init, Sys.open, Sys.mmap]⟩⟩ rfl rfl
  have l3 := l2.act 2 (.jsonInit ⟨7, some 5, some 30, true⟩) rfl rfl (by rintro a ⟨⟩; refine ⟨by decide, ?_⟩; unfold Apart; decide +kernel) rfl rfl
  have l4 := l3.act 0 (.readerFin ⟨true, true⟩) rfl rfl ⟨rfl, rfl⟩ rfl rfl
  have l5 := l4.act 2 .kill rfl rfl trivial rfl rfl
  have l6 := l5.act 1 .kill rfl rfl trivial rfl rfl
  exact ⟨_, _, _, l6, by decide +kernel, rfl⟩

/-- C84 is false for JSON sources: the descriptor of every JSON file that is opened stays open, however often that happens, although all objects are destroyed. -/
theorem C84_json_false (s0 : Sys) (h0 : Fine s0) (n : Nat) : ∃ s os ps, Life s0 s os ps n ∧ (∀ p ∈ ps, p = .gone) ∧ s.fds.length = s0.fds.length + n := by
  have key : ∃ s os ps, Life s0 s os ps n ∧ ∀ p ∈ ps, p = .gone := by
    induction n with
    | zero => exact ⟨_, _, _, .start, by simp⟩
    | succ n ih =>
      obtain ⟨s, os, ps, h, hp⟩ := ih
      obtain ⟨a, ha⟩ := free_above s 7 (by omega)
      have hlen := (life_inv h0 h).2.1
      have l1 := h.make (.json JsonObj.new) (Or.inr (Or.inl rfl))
      have l2 := l1.act (o := .json JsonObj.new) (p := .closed) os.length (.jsonInit ⟨7, some 3, some a, true⟩) (by simp) (by rw [hlen]; simp) (by rintro b ⟨⟩; exact ha) rfl rfl
      have l3 := l2.act (o := .json ⟨none, some a, 7⟩) (p := .parsed 7) os.length .kill (by simp; rfl) (by rw [hlen]; simp) trivial rfl rfl
      refine ⟨_, _, _, l3, fun p hq => ?_⟩
      rw [hlen] at hq
      simp at hq
      rcases hq with hq | rfl
      · exact hp p hq
      · rfl
  obtain ⟨s, os, ps, h, hp⟩ := key
  obtain ⟨-, l, h1, h2⟩ := C84_back_partial s0 s os ps n h0 h fun p hq => by rw [hp p hq]; rfl
  exact ⟨s, os, ps, h, hp, by rw [h2.length_eq, List.length_append, h1]; omega⟩

/-- C84 is false for readers that are initialized twice: the first descriptor and the first mapping are never given back. -/
theorem C84_twice_false (s : Sys) (h : Fine s) (f g a b m n : Nat) (ha : Free s a m) (hb : Free (s.mmap a m) b n) :
    let r1 := Reader.new.init ⟨true, some f, m, some a, true⟩ s
    let r2 := r1.2.1.init ⟨true, some g, n, some b, true⟩ r1.2.2
    let r3 := r2.2.1.fin ⟨true, true⟩ r2.2.2
    r1.1 = true ∧ r2.1 = true ∧ r3.1 = true ∧ r3.2.1.fd = none ∧ r3.2.1.doc = none ∧ r3.2.2.fds = f :: s.fds ∧ r3.2.2.maps.Perm ((a, pages m) :: s.maps) := by
  refine ⟨rfl, rfl, rfl, rfl, rfl, ?_, ?_⟩
  · show (g :: f :: s.fds).erase g = _
    simp
  · exact (munmap_spec (s := (s.mmap a m).mmap b n) (mmap_fine (mmap_fine h ha) hb) (List.Perm.refl _)).1

/-- C84 is false for readers that are destroyed without being finalized. -/
theorem C84_destroyed_false (s : Sys) (f a m : Nat) :
    ∃ r s', (Obj.reader Reader.new).act s (.readerInit ⟨true, some f, m, some a, true⟩) = some (true, r, s') ∧ r.act s' .kill = some (true, .gone, ⟨f :: s.fds, (a, pages m) :: s.maps⟩) :=
  ⟨_, _, rfl, rfl⟩

/-- C84 is false for documents whose initialization fails and is tried again: the first descriptor and the first mapping are never given back. -/
theorem C84_retry_false (s : Sys) (h : Fine s) (f g a b m : Nat) (ha : Free s a m) (hb : Free (s.mmap a m) b m) :
    let k (fd page : Nat) (made : Bool) : BwAns := ⟨some fd, true, fun _ => some page, fun _ => true, true, fun _ => 0, made⟩
    let r1 := (BwObj.new m).init (k f a false) s
    let r2 := r1.2.1.init (k g b true) r1.2.2
    let r3 := r2.2.1.fin r2.2.2
    r1.1 = false ∧ r2.1 = true ∧ r3.1.fd = none ∧ r3.1.pool = .null ∧ r3.2.fds = f :: s.fds ∧ r3.2.maps.Perm ((a, pages m) :: s.maps) := by
  refine ⟨rfl, rfl, rfl, rfl, ?_, ?_⟩
  · show (g :: f :: s.fds).erase g = _
    simp
  · exact (munmap_spec (s := (s.mmap a m).mmap b m) (mmap_fine (mmap_fine h ha) hb) (List.Perm.refl _)).1

/-- C84 is false for a JSON file that grows while it is converted: pages of other mappings behind its own are unmapped. -/
theorem C84_grown_false (s : Sys) (j : JsonObj) (a c : Nat) (n : Int) (hj : j.source = some a) (h1 : j.fd = none) (h2 : pages j.size.toNat < pages n.toNat) (hc : 0 < c) :
    (a + pages j.size.toNat, c) ∉ ((j.update n).kill s).maps := by
  obtain ⟨fd, source, size⟩ := j
  simp only at hj h1
  subst hj; subst h1
  have hn : ¬ n ≤ 0 := by
    intro hn
    rw [show n.toNat = 0 by omega] at h2
    simp [pages] at h2
  intro hx
  have hx' : (a + pages size.toNat, c) ∈ (s.munmap a n.toNat).maps := by
    unfold JsonObj.kill JsonObj.update at hx
    simpa [hn] using hx
  have := munmap_away hx'
  unfold Apart at this
  simp only at this h2
  omega

example : let s : Sys := ⟨[3], [(10, 1), (11, 4)]⟩
    (⟨none, some 10, 100⟩ : JsonObj).kill s = ⟨[3], [(11, 4)]⟩ ∧ ((⟨none, some 10, 100⟩ : JsonObj).update 9000).kill s = ⟨[3], [(13, 2)]⟩ := by decide +kernel

/-- C84 is false for documents whose size is changed after an initialization that failed: pages of other mappings are unmapped. -/
theorem C84_resized_false (s : Sys) (b : BwObj) (a c n : Nat) (hb : b.pool = .page a) (hr : b.ready = false) (h2 : pages b.max < pages n) (hc : 0 < c) :
    (b.setMax n).1 = true ∧ (a + pages b.max, c) ∉ ((b.setMax n).2.fin s).2.maps := by
  obtain ⟨fd, pool, max, ready⟩ := b
  simp only at hb hr h2
  subst hb; subst hr
  refine ⟨rfl, fun hx => ?_⟩
  have := munmap_away (s := match fd with | none => s | some fd => s.close fd) (a := a) (n := n) (x := (a + pages max, c)) (by cases fd <;> exact hx)
  unfold Apart at this
  simp only at this
  omega

/-- C84 is false when `close` reports an error: finalizing the reader again closes a descriptor that belongs to somebody else by then. -/
theorem C84_reclosed_false (s : Sys) (f n : Nat) :
    let r1 := (⟨some f, none, n⟩ : Reader).fin ⟨true, false⟩ (s.open f)
    let r2 := r1.2.1.fin ⟨true, true⟩ (r1.2.2.open f)
    r1.1 = false ∧ r1.2.2.fds = s.fds ∧ r2.1 = true ∧ r2.2.2.fds = s.fds := by
  refine ⟨rfl, ?_, rfl, ?_⟩
  · show (f :: s.fds).erase f = _
    simp
  · show (f :: ((f :: s.fds).erase f)).erase f = _
    simp

/-- C84 is false of the memory of a creator: the tables of its symbols are taken with `malloc` and given back with `delete []`, which is undefined. -/
theorem C84_delete_false (c : CreatorMem) (h : List (Nat × Alloc)) (t y : Nat) (names : List Nat) (ts : List (Nat × Nat × List Nat)) (hc : c.tabs = (t, y, names) :: ts) (hn : (t, .newArr) ∉ h) :
    creatorFrees false c.tabs (creatorTakes c h) = .ub := by
  rw [hc, creatorFrees]
  cases hf : freeAll names (creatorTakes c h) with
  | fail => exact absurd hf (freeAll_not_fail _ _)
  | ub => rfl
  | ok h' =>
    have : (t, Alloc.newArr) ∉ h' := fun hm => hn (takes_mem rfl c h (freeAll_sub _ _ _ hf hm))
    rw [Out.ok_bind]
    unfold heapDelete
    rw [if_neg this]
    simp

/-- C84 is false of the memory of a creator: the buffer of a conversion is never given back, even if `delete []` takes all memory. -/
theorem C84_data_false (c : CreatorMem) (h h' : List (Nat × Alloc)) (hd : ∀ t ∈ c.tabs, c.data ≠ t.1 ∧ c.data ≠ t.2.1 ∧ c.data ∉ t.2.2)
    (hf : creatorFrees true c.tabs (creatorTakes c h) = .ok h') : (c.data, .malloc) ∈ h' := by
  have key : ∀ (l : List (Nat × Nat × List Nat)) (g : List (Nat × Alloc)), (∀ t ∈ l, c.data ≠ t.1 ∧ c.data ≠ t.2.1 ∧ c.data ∉ t.2.2) → (c.data, .malloc) ∈ g →
      creatorFrees true l g = .ok h' → (c.data, .malloc) ∈ h' := by
    intro l
    induction l with
    | nil => intro g _ hg e; cases e; exact hg
    | cons x l ih =>
      intro g hx hg e
      obtain ⟨t, y, names⟩ := x
      obtain ⟨x1, x2, x3⟩ := hx (t, y, names) (by simp)
      rw [creatorFrees] at e
      obtain ⟨g1, e1, e⟩ := Out.bind_eq_ok e
      obtain ⟨g2, e2, e⟩ := Out.bind_eq_ok e
      obtain ⟨g3, e3, e⟩ := Out.bind_eq_ok e
      exact ih g3 (fun t ht => hx t (by simp [ht])) (delete_keeps e3 x2 (delete_keeps e2 x1 (freeAll_keeps _ _ _ e1 x3 hg))) e
  exact key c.tabs _ hd (List.mem_cons_self ..) hf

example : let c : CreatorMem := ⟨[(10, 11, [20, 21]), (12, 13, [])], 30⟩
    creatorFrees true c.tabs (creatorTakes c [(7, .newArr)]) = .ok [(30, .malloc), (7, .newArr)] ∧ creatorFrees false c.tabs (creatorTakes c [(7, .newArr)]) = .ub := by decide +kernel

end BX
