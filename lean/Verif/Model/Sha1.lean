import Verif.Model.Base
/-
SHA-1 (block-sha1 of git) as in src/missings.cpp:112-407.
-/
namespace BX

/-- `SHA_ROL(x,n)`, missings.cpp:179 / 185: a rotation of a 32-bit word. -/
def rol (x : UInt32) (n : UInt32) : UInt32 := (x <<< n) ||| (x >>> (32 - n))
/-- `SHA_ROR(x,n)`, missings.cpp:180 / 186. -/
def ror (x : UInt32) (n : UInt32) : UInt32 := (x <<< (32 - n)) ||| (x >>> n)

/-- The local variables `A`, `B`, `C`, `D`, `E`, missings.cpp:243. -/
structure Regs where
  A : UInt32
  B : UInt32
  C : UInt32
  D : UInt32
  E : UInt32
deriving Repr, DecidableEq

/-- The variables in the order in which the `t`-th macro call names them: `(A,B,C,D,E)`, `(E,A,B,C,D)`, `(D,E,A,B,C)`,
`(C,D,E,A,B)`, `(B,C,D,E,A)` and over again, missings.cpp:253-340. -/
def Regs.view (r : Regs) (t : Nat) : Regs :=
  match t % 5 with
  | 0 => r
  | 1 => ⟨r.E, r.A, r.B, r.C, r.D⟩
  | 2 => ⟨r.D, r.E, r.A, r.B, r.C⟩
  | 3 => ⟨r.C, r.D, r.E, r.A, r.B⟩
  | _ => ⟨r.B, r.C, r.D, r.E, r.A⟩

/-- The variables written back under their own names. -/
def Regs.unview (v : Regs) (t : Nat) : Regs :=
  match t % 5 with
  | 0 => v
  | 1 => ⟨v.B, v.C, v.D, v.E, v.A⟩
  | 2 => ⟨v.C, v.D, v.E, v.A, v.B⟩
  | 3 => ⟨v.D, v.E, v.A, v.B, v.C⟩
  | _ => ⟨v.E, v.A, v.B, v.C, v.D⟩

/-- `SHA_SRC(t)`: the big-endian word at `block + t*4`, missings.cpp:227, 121. -/
def beWord (block : List UInt8) (t : Nat) : UInt32 :=
  UInt32.ofNat ((block.getD (t * 4) 0).toNat * 16777216 + (block.getD (t * 4 + 1) 0).toNat * 65536 +
    (block.getD (t * 4 + 2) 0).toNat * 256 + (block.getD (t * 4 + 3) 0).toNat)

/-- `W(x)`, missings.cpp:221. -/
def wGet (array : List UInt32) (x : Nat) : UInt32 := array.getD (x % 16) 0

/-- `SHA_MIX(t)`, missings.cpp:228. -/
def shaMix (array : List UInt32) (t : Nat) : UInt32 :=
  rol (wGet array (t + 13) ^^^ wGet array (t + 8) ^^^ wGet array (t + 2) ^^^ wGet array t) 1

/-- The function and the constant of `T_0_15` … `T_60_79`, missings.cpp:235-239. -/
def shaFn (t : Nat) (B C D : UInt32) : UInt32 :=
  if t < 20 then ((C ^^^ D) &&& B) ^^^ D
  else if t < 40 then B ^^^ C ^^^ D
  else if t < 60 then (B &&& C) + (D &&& (B ^^^ C))
  else B ^^^ C ^^^ D

def shaK (t : Nat) : UInt32 :=
  if t < 20 then 0x5a827999 else if t < 40 then 0x6ed9eba1 else if t < 60 then 0x8f1bbcdc else 0xca62c1d6

/-- `SHA_ROUND` as the `t`-th line of `blk_SHA1_Block`, missings.cpp:230-233. -/
def shaRound (block : List UInt8) (t : Nat) (s : Regs × List UInt32) : Regs × List UInt32 :=
  let (r, array) := s
  let temp := if t < 16 then beWord block t else shaMix array t
  let array := array.set (t % 16) temp
  let v := r.view t
  let e := v.E + (temp + rol v.A 5 + shaFn t v.B v.C v.D + shaK t)
  let b := ror v.B 2
  (({ v with E := e, B := b } : Regs).unview t, array)

/-- the rounds `t`, `t+1`, …, `t+n-1` -/
def shaRounds (block : List UInt8) : (n t : Nat) → Regs × List UInt32 → Regs × List UInt32
  | 0, _, s => s
  | n + 1, t, s => shaRounds block n (t + 1) (shaRound block t s)

/-- `blk_SHA1_Block`, missings.cpp:241-347. The array is uninitialised memory; its first content is irrelevant and taken as 0. -/
def shaBlock (h : Regs) (block : List UInt8) : Regs :=
  let (r, _) := shaRounds block 80 0 (h, List.replicate 16 0)
  ⟨h.A + r.A, h.B + r.B, h.C + r.C, h.D + r.D, h.E + r.E⟩

/-- `blk_SHA_CTX`, missings.h:20-24. `W` is the 64-byte buffer. -/
structure ShaCtx where
  size : Nat
  H : Regs
  W : List UInt8

/-- `blk_SHA1_Init`, missings.cpp:349-359; `w` is the uninitialised buffer. -/
def shaInit (w : List UInt8) : ShaCtx :=
  { size := 0, H := ⟨0x67452301, 0xefcdab89, 0x98badcfe, 0x10325476, 0xc3d2e1f0⟩, W := w }

/-- `memcpy(at + (char*)ctx->W, data, …)` -/
def wPut (w : List UInt8) (pos : Nat) (data : List UInt8) : List UInt8 :=
  w.take pos ++ data ++ w.drop (pos + data.length)

/-- `while (len >= 64) { blk_SHA1_Block(ctx, data); … }`, missings.cpp:380-384. -/
def shaLoop (h : Regs) (data : List UInt8) : Regs × List UInt8 :=
  if data.length ≥ 64 then shaLoop (shaBlock h (data.take 64)) (data.drop 64) else (h, data)
termination_by data.length
decreasing_by simp; omega

/-- the part of `blk_SHA1_Update` after the buffer is empty, missings.cpp:380-386 -/
def shaTail (size : Nat) (h : Regs) (w data : List UInt8) : ShaCtx :=
  let (h, data) := shaLoop h data
  if data.length ≠ 0 then { size := size, H := h, W := wPut w 0 data } else { size := size, H := h, W := w }

/-- `blk_SHA1_Update`, missings.cpp:361-387. -/
def shaUpdate (c : ShaCtx) (data : List UInt8) : ShaCtx :=
  let lenW := c.size % 64
  let size := (c.size + data.length) % 2 ^ 64
  if lenW ≠ 0 then
    let left := if data.length < 64 - lenW then data.length else 64 - lenW
    let w := wPut c.W lenW (data.take left)
    if (lenW + left) % 64 ≠ 0 then { size := size, H := c.H, W := w }
    else shaTail size (shaBlock c.H w) w (data.drop left)
  else shaTail size c.H c.W data

/-- the four bytes of a word, most significant first (`htonl`, `put_be32`) -/
def be32 (x : UInt32) : List UInt8 :=
  [(x >>> 24).toUInt8, (x >>> 16).toUInt8, (x >>> 8).toUInt8, x.toUInt8]

/-- `blk_SHA1_Final`, missings.cpp:389-406. `63 & (55 - i)` on a signed int is `(55 - i) mod 64`. -/
def shaFinal (c : ShaCtx) : List UInt8 :=
  let padlen := be32 (UInt32.ofNat (c.size / 2 ^ 29)) ++ be32 (UInt32.ofNat (c.size * 8))
  let i := c.size % 64
  let pad := (0x80 :: List.replicate 63 0).take (1 + (55 + 64 - i) % 64)
  let c := shaUpdate (shaUpdate c pad) padlen
  be32 c.H.A ++ be32 c.H.B ++ be32 c.H.C ++ be32 c.H.D ++ be32 c.H.E

/-- Init, one Update per chunk, Final: `SHA1` (missings.cpp:125-133) for one chunk, `file_getsha1` (137-166) for many. -/
def shaOfChunks (w : List UInt8) (chunks : List (List UInt8)) : List UInt8 :=
  shaFinal (chunks.foldl shaUpdate (shaInit w))

end BX
