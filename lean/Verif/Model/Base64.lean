import Verif.Model.Base
/-
Base64. Models src/utils.cpp:1209-1293.
-/
namespace BX

/-- `BASE64`, utils.cpp:1209 -/
def BASE64 : List Char := "ABCDEFGHIJKLMNOPQRSTUVWXYZabcdefghijklmnopqrstuvwxyz0123456789+/".toList
/-- `BASE64[i]` -/
def b64 (i : Nat) : Char := BASE64.getD i '\x00'

/-- the encoding loop, utils.cpp:1218-1236: characters written and the remaining `dst_size` -/
def b64EncLoop : List UInt8 → Nat → CStr × Nat
  | [], n => ([], n)
  | A :: rest, n =>
    if n < 2 then ([], n)
    else
      let a := A.toNat
      let b := (rest.headD 0).toNat
      let c := (rest.tail.headD 0).toNat
      let c1 := b64 (a / 4)
      let c2 := b64 (a % 4 * 16 + b / 16)
      if rest = [] ∨ n - 2 = 0 then ([c1, c2], n - 2)
      else
        let c3 := b64 (b % 16 * 4 + c / 64)
        if rest.tail = [] ∨ n - 3 = 0 then ([c1, c2, c3], n - 3)
        else
          let c4 := b64 (c % 64)
          let r := b64EncLoop rest.tail.tail (n - 4)
          (c1 :: c2 :: c3 :: c4 :: r.1, r.2)
termination_by src => src.length
decreasing_by simp; omega

/-- the padding loop `for(int c = (dst-dst_base) & 3;c > 0 && dst_size > 0 && c < 4;c++,dst_size--)`, utils.cpp:1237-1238 -/
def b64Pad (c n : Nat) : CStr × Nat :=
  if 0 < c ∧ 0 < n ∧ c < 4 then
    let r := b64Pad (c + 1) (n - 1)
    ('=' :: r.1, r.2)
  else ([], n)
termination_by 4 - c

/-- `base64_encode`, utils.cpp:1211-1242: the characters written, and whether the terminator is written
(`if (dst_size > 1) *dst = 0`). -/
def base64Encode (src : List UInt8) (dstSize : Nat) : CStr × Bool :=
  let r := b64EncLoop src dstSize
  let q := b64Pad (r.1.length % 4) r.2
  (r.1 ++ q.1, decide (1 < q.2))

/-- `BACK64`, utils.cpp:1244-1260, for a character (`none` is -1); the 256-entry table is written as ranges -/
def back64 (c : Char) : Option Nat :=
  let n := c.toNat
  if n = 43 then some 62
  else if n = 47 then some 63
  else if 48 ≤ n ∧ n ≤ 57 then some (n - 48 + 52)
  else if 65 ≤ n ∧ n ≤ 90 then some (n - 65)
  else if 97 ≤ n ∧ n ≤ 122 then some (n - 97 + 26)
  else none

/-- the loop of `base64_decode`, utils.cpp:1269-1291: bytes written for `src` into `n` bytes of room -/
def b64DecLoop : CStr → Nat → List UInt8
  | k :: l :: rest, n =>
    if n = 0 then [] else
    match back64 k, back64 l with
    | some K, some L =>
      let A := UInt8.ofNat (K * 4 + L / 16)
      match rest with
      | [] => [A]
      | m :: rest =>
        match back64 m with
        | none => [A]
        | some M =>
          if n ≤ 1 then [A] else
          let B := UInt8.ofNat (L % 16 * 16 + M / 4)
          match rest with
          | [] => [A, B]
          | x :: rest =>
            match back64 x with
            | none => [A, B]
            | some N =>
              if n ≤ 2 then [A, B] else
              A :: B :: UInt8.ofNat (M % 4 * 64 + N) :: b64DecLoop rest (n - 3)
    | _, _ => []
  | _, _ => []

/-- `base64_decode`, utils.cpp:1263-1292: returned count and the content of the `dstSize` destination bytes. -/
def base64Decode (src : CStr) (dstSize : Nat) : Nat × List UInt8 :=
  let bs := b64DecLoop src dstSize
  (bs.length, bs ++ List.replicate (dstSize - bs.length) 0)

end BX
