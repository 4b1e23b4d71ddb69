import Verif.Model.Base
/-
The two sorting routines of src/missings.cpp. Elements (blocks of `size` bytes, moved by `memcpy`) are values of a type `α`,
the comparator is any function `cmp : α → α → Int`. Reading outside the array is the outcome `ub`.
-/
namespace BX
variable {α : Type}

/-! ### qsort_r2 -/

/-- `while (compar(BASE(left),BASE(test),arg) < 0 && left < right) left++;` missings.cpp:32. -/
def qLeft (cmp : α → α → Int) (a : List α) (test left right : Nat) : Out Nat :=
  match a[left]?, a[test]? with
  | some x, some y => if cmp x y < 0 ∧ left < right then qLeft cmp a test (left + 1) right else .ok left
  | _, _ => .ub
termination_by right - left

/-- `while (compar(BASE(right),BASE(test),arg) > 0 && left < right) right--;` missings.cpp:33. -/
def qRight (cmp : α → α → Int) (a : List α) (test left right : Nat) : Out Nat :=
  match a[right]?, a[test]? with
  | some x, some y => if cmp x y > 0 ∧ left < right then qRight cmp a test left (right - 1) else .ok right
  | _, _ => .ub
termination_by right - left

/-- Exchange of two elements through `temp`, missings.cpp:37-39. -/
def swapAt (a : List α) (i j : Nat) : Out (List α) :=
  match a[i]?, a[j]? with
  | some x, some y => .ok ((a.set i y).set j x)
  | _, _ => .ub

/-- The partition loop, missings.cpp:30-42. The pivot is the *place* `test`, whatever is stored there at the moment.
`fuel` bounds the rounds of the loop (`ub` when exhausted: shown not to happen). Returns the array and `left`. -/
def qPart (cmp : α → α → Int) : Nat → List α → Nat → Nat → Nat → Out (List α × Nat)
  | 0, _, _, _, _ => .ub
  | fuel + 1, a, test, left, right =>
    (qLeft cmp a test left right).bind fun left =>
    (qRight cmp a test left right).bind fun right =>
    if left ≥ right then .ok (a, left)
    else (swapAt a left right).bind fun a => qPart cmp fuel a test (left + 1) (right - 1)

/-- `qsort_r2`, missings.cpp:17-47. `fuel` bounds the depth of the recursion (`ub` when exhausted). -/
def qsortF (cmp : α → α → Int) : Nat → List α → Out (List α)
  | 0, a => if a.length < 2 then .ok a else .ub
  | fuel + 1, a =>
    if a.length < 2 then .ok a
    else
      (qPart cmp (a.length + 1) a (a.length / 2) 0 (a.length - 1)).bind fun (a, left) =>
      (qsortF cmp fuel (a.take left)).bind fun x =>
      (qsortF cmp fuel (a.drop left)).bind fun y => .ok (x ++ y)

def qsortR2 (cmp : α → α → Int) (a : List α) : Out (List α) := qsortF cmp a.length a

/-! ### mergesort_r2 -/

/-- The merging loop, missings.cpp:70-98: the elements stored at `DST(D)`, `DST(D+1)`, … -/
def mergeLoop (cmp : α → α → Int) (src : List α) (A AE B BE : Nat) : Out (List α) :=
  if A < AE then
    if B < BE then
      match src[A]?, src[B]? with
      | some x, some y =>
        if cmp x y ≤ 0 then (mergeLoop cmp src (A + 1) AE B BE).bind fun r => .ok (x :: r)
        else (mergeLoop cmp src A AE (B + 1) BE).bind fun r => .ok (y :: r)
      | _, _ => .ub
    else
      match src[A]? with
      | some x => (mergeLoop cmp src (A + 1) AE B BE).bind fun r => .ok (x :: r)
      | none => .ub
  else if B < BE then
    match src[B]? with
    | some y => (mergeLoop cmp src A AE (B + 1) BE).bind fun r => .ok (y :: r)
    | none => .ub
  else .ok []
termination_by (AE - A) + (BE - B)

/-- One pass over the array, missings.cpp:58-99: everything stored from `DST(0)` on; the passes start at `start`.
`merge_len << 1` is a plain doubling (arrays above 2^30 elements, for which it would overflow, are not modelled). -/
def mergePass (cmp : α → α → Int) (src : List α) (n m start : Nat) : Out (List α) :=
  if h : start < n ∧ 0 < m then
    let AE := if start + m > n then n else start + m
    let BE := if AE + m > n then n else AE + m
    (mergeLoop cmp src start AE AE BE).bind fun d =>
    (mergePass cmp src n m (start + m * 2)).bind fun r => .ok (d ++ r)
  else .ok []
termination_by n - start

/-- The two buffers: the caller's array, the temporary one, and which of them is `src`. -/
structure MergeBufs (α : Type) where
  base : List α
  temp : List α
  srcIsBase : Bool

def MergeBufs.src (b : MergeBufs α) : List α := if b.srcIsBase then b.base else b.temp

/-- store `d` at the beginning of the destination buffer and exchange the buffers, missings.cpp:100-104 -/
def MergeBufs.store (b : MergeBufs α) (d : List α) : MergeBufs α :=
  if b.srcIsBase then { base := b.base, temp := d ++ b.temp.drop d.length, srcIsBase := false }
  else { base := d ++ b.base.drop d.length, temp := b.temp, srcIsBase := true }

/-- The outer loop over `merge_len`, missings.cpp:56-104. -/
def mergeOuter (cmp : α → α → Int) (n m : Nat) (b : MergeBufs α) : Out (MergeBufs α) :=
  if h : m < n ∧ 0 < m then
    (mergePass cmp b.src n m 0).bind fun d => mergeOuter cmp n (m * 2) (b.store d)
  else .ok b
termination_by n - m

/-- `mergesort_r2`, missings.cpp:49-110: the content of the caller's array at the end. `temp` is whatever `alloca` returned. -/
def mergesortR2 (cmp : α → α → Int) (a temp : List α) : Out (List α) :=
  (mergeOuter cmp a.length 1 { base := a, temp := temp, srcIsBase := true }).bind fun b =>
    -- `if (dst == base) memcpy(base,src,size * nmemb);`
    .ok (if b.srcIsBase then b.base else b.temp.take a.length ++ b.base.drop a.length)

end BX
