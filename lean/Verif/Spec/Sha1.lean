/-
SHA-1 as in FIPS 180-4 (sections 4.1.1, 4.2.1, 5.1.1, 5.3.1, 6.1); independent of the code.
-/
namespace BX.Spec

/-- ROTL -/
def rotl (n : Nat) (x : UInt32) : UInt32 := ⟨x.toBitVec.rotateLeft n⟩

/-- f_t, 4.1.1 -/
def f (t : Nat) (x y z : UInt32) : UInt32 :=
  if t ≤ 19 then (x &&& y) ^^^ (~~~x &&& z)
  else if t ≤ 39 then x ^^^ y ^^^ z
  else if t ≤ 59 then (x &&& y) ^^^ (x &&& z) ^^^ (y &&& z)
  else x ^^^ y ^^^ z

/-- K_t, 4.2.1 -/
def K (t : Nat) : UInt32 :=
  if t ≤ 19 then 0x5a827999 else if t ≤ 39 then 0x6ed9eba1 else if t ≤ 59 then 0x8f1bbcdc else 0xca62c1d6

/-- M_t: the t-th big-endian 32-bit word of a 64-byte block -/
def M (block : List UInt8) (t : Nat) : UInt32 :=
  UInt32.ofNat ((block.getD (4 * t) 0).toNat * 2 ^ 24 + (block.getD (4 * t + 1) 0).toNat * 2 ^ 16 +
    (block.getD (4 * t + 2) 0).toNat * 2 ^ 8 + (block.getD (4 * t + 3) 0).toNat)

/-- the message schedule W_t, 6.1.2 step 1 -/
def W (block : List UInt8) (t : Nat) : UInt32 :=
  if h : t < 16 then M block t
  else rotl 1 (W block (t - 3) ^^^ W block (t - 8) ^^^ W block (t - 14) ^^^ W block (t - 16))

/-- the working variables after `t` rounds, 6.1.2 step 3 -/
def vars (h : UInt32 × UInt32 × UInt32 × UInt32 × UInt32) (block : List UInt8) :
    Nat → UInt32 × UInt32 × UInt32 × UInt32 × UInt32
  | 0 => h
  | t + 1 =>
    let (a, b, c, d, e) := vars h block t
    (rotl 5 a + f t b c d + e + K t + W block t, a, rotl 30 b, c, d)

/-- the hash value after one more block, 6.1.2 step 4 -/
def step (h : UInt32 × UInt32 × UInt32 × UInt32 × UInt32) (block : List UInt8) : UInt32 × UInt32 × UInt32 × UInt32 × UInt32 :=
  let (a, b, c, d, e) := vars h block 80
  (a + h.1, b + h.2.1, c + h.2.2.1, d + h.2.2.2.1, e + h.2.2.2.2)

/-- `n` in `k` bytes, most significant first -/
def bigEndian : (k n : Nat) → List UInt8
  | 0, _ => []
  | k + 1, n => bigEndian k (n / 256) ++ [UInt8.ofNat n]

/-- padding, 5.1.1: a one bit, as few zeros as possible, the length in bits in 64 bits -/
def padded (m : List UInt8) : List UInt8 :=
  m ++ [0x80] ++ List.replicate ((119 - m.length % 64) % 64) 0 ++ bigEndian 8 (8 * m.length)

/-- the blocks of 64 bytes -/
def blocks (m : List UInt8) : List (List UInt8) :=
  if h : m.length < 64 then [] else m.take 64 :: blocks (m.drop 64)
termination_by m.length
decreasing_by simp; omega

/-- SHA-1 -/
def sha1 (m : List UInt8) : List UInt8 :=
  let h := (blocks (padded m)).foldl step (0x67452301, 0xefcdab89, 0x98badcfe, 0x10325476, 0xc3d2e1f0)
  bigEndian 4 h.1.toNat ++ bigEndian 4 h.2.1.toNat ++ bigEndian 4 h.2.2.1.toNat ++ bigEndian 4 h.2.2.2.1.toNat ++
    bigEndian 4 h.2.2.2.2.toNat

end BX.Spec
