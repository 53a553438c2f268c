import Verif.Model.Float

/-
Fixed-width binary fields: the little-endian encoders used by the converter
(Python `struct.pack`, `ctypes`) and the raw decoders used by the engine (`fread`
into integers on a little-endian machine).
-/

namespace DeepGNN

/-- A file is the list of its bytes. -/
abbrev Bytes := List UInt8

/-- `n` little-endian bytes of `v` (high bits dropped).  Models the byte layout of
`ctypes.c_uint64(v)` / `struct.pack("=Q", v)` on a little-endian machine
(src/python/deepgnn/graph_engine/snark/converter/writers.py:203-211, 276-281). -/
def leBytes : Nat → Nat → Bytes
  | 0, _ => []
  | n + 1, v => UInt8.ofNat (v % 256) :: leBytes n (v / 256)

/-- The unsigned number stored in a little-endian byte string: what `fread` into an
unsigned integer produces (src/cc/lib/graph/partition.cc:165, 214, 281). -/
def leNat : Bytes → Nat
  | [] => 0
  | b :: bs => b.toNat + 256 * leNat bs

/-- Reinterpretation of an `8*n`-bit unsigned number as two's complement: reading a
field into `int32_t`/`int64_t` (NodeId is `int64_t`, src/cc/lib/graph/types.h:12). -/
def toSigned (n : Nat) (v : Nat) : Int :=
  if v < 2 ^ (8 * n - 1) then (v : Int) else (v : Int) - 2 ^ (8 * n)

/-- `struct.pack("=Q", v)`: `struct.error` (here `none`) unless `0 ≤ v < 2^64`
(writers.py:204-211, 370-377). -/
def packQ (v : Int) : Option Bytes :=
  if 0 ≤ v ∧ v < 2 ^ 64 then some (leBytes 8 v.toNat) else none

/-- `struct.pack("=i", v)`: `struct.error` unless `v` fits `int32`
(writers.py:204-211, 370-377). -/
def packI32 (v : Int) : Option Bytes :=
  if -(2 ^ 31) ≤ v ∧ v < 2 ^ 31 then some (leBytes 4 (v % 2 ^ 32).toNat) else none

/-- `struct.pack("=q", v)`: `struct.error` unless `v` fits `int64`
(writers.py:384-391, 551-558). -/
def packI64 (v : Int) : Option Bytes :=
  if -(2 ^ 63) ≤ v ∧ v < 2 ^ 63 then some (leBytes 8 (v % 2 ^ 64).toNat) else none

/-- `ctypes.c_uint64(v)`: wraps silently (writers.py:276, 281, 342, 351). -/
def cU64 (v : Nat) : Bytes := leBytes 8 v

/-- `ctypes.c_uint32(v)` (writers.py:722-723). -/
def cU32 (v : Nat) : Bytes := leBytes 4 v

/-- Read an unsigned 8-byte field (partition.cc:205-216 and others). -/
def rdU64 (b : Bytes) : Nat := leNat b

/-- Read an `int64_t` field (partition.cc:161-180 reads `NodeId` pairs as such). -/
def rdI64 (b : Bytes) : Int := toSigned 8 (leNat b)

/-- Read an `int32_t` field (partition.cc:168, 297). -/
def rdI32 (b : Bytes) : Int := toSigned 4 (leNat b)

/-- Split a byte string in consecutive records of `k` bytes, ignoring an incomplete
tail: the `size()/k` iterations of every `Read…` loop in partition.cc:152-337. -/
def records (k : Nat) (b : Bytes) : List Bytes :=
  if _h : k = 0 ∨ b.length < k then [] else b.take k :: records k (b.drop k)
termination_by b.length
decreasing_by
  simp only [not_or] at _h
  simp [List.length_drop]; omega

/-- The wire format of a weight (`f` in `struct.pack`, IEEE single precision).  The
model keeps weights as integer multiples of a common power of two and leaves the bit
layout abstract: 4 bytes, and `dec` inverts `enc` on the weights the format can
represent (`Valid`), which have at most 24 significant bits (`exact`). -/
structure WeightCodec where
  enc : Int → Bytes
  dec : Bytes → Int
  Valid : Int → Prop
  len : ∀ w, (enc w).length = 4
  round : ∀ w, Valid w → dec (enc w) = w
  exact : ∀ w, Valid w → f32 w = w

/-- A concrete codec for the integers up to `2^24` (32-bit two's complement), so that the assumption
is not vacuous. -/
def intCodec : WeightCodec where
  enc w := leBytes 4 (w % 2 ^ 32).toNat
  dec b := rdI32 b
  Valid w := -(2 ^ 24) ≤ w ∧ w ≤ 2 ^ 24
  exact w hw := f32_small (by obtain ⟨h1, h2⟩ := hw; omega)
  len _ := rfl
  round w hw := by
    have key : ∀ n v, leNat (leBytes n v) = v % 256 ^ n := by
      intro n
      induction n with
      | zero => intro v; simp [leBytes, leNat, Nat.mod_one]
      | succ n ih =>
        intro v
        simp only [leBytes, leNat, ih]
        rw [Nat.pow_succ, Nat.mul_comm (256 ^ n) 256, Nat.mod_mul]
        simp
    simp only [rdI32, key, toSigned]
    obtain ⟨h1, h2⟩ := hw
    omega

end DeepGNN
