import Verif.Model.Time
/-
builder/data/cloud_types.{h,cc} : binary form of clouds.

A `float` is represented by its 32-bit pattern, so NaNs and signed zeros are preserved.
The machine is little-endian with 8-byte `size_t` (x86-64), structs have no padding:
`InnerPointType` is five floats (20 bytes), `SimpleTime` three `uint32_t` (12 bytes).
-/
namespace Verif

/-- cloud_types.h:46-51, parametric in the number type. -/
structure InnerPoint (α : Type _) where
  x : α
  y : α
  z : α
  intensity : α
  factor : α
  deriving Repr, DecidableEq

/-- cloud_types.h:60-62 (stamp kept separately as the three words of `SimpleTime`). -/
structure RawTime where
  secs : UInt32
  nsecs : UInt32
  judge : UInt32
  deriving Repr, DecidableEq

structure InnerCloud (α : Type _) where
  stamp : RawTime
  points : List (InnerPoint α)
  deriving Repr, DecidableEq

abbrev BitsPoint := InnerPoint UInt32
abbrev BitsCloud := InnerCloud UInt32

/-- Little-endian bytes of a machine word. -/
def leBytes : Nat → Nat → List UInt8
  | 0, _ => []
  | k + 1, n => UInt8.ofNat n :: leBytes k (n / 256)

/-- Value of little-endian bytes. -/
def leVal : List UInt8 → Nat
  | [] => 0
  | b :: bs => b.toNat + 256 * leVal bs

/-- The memory image of a `float`/`uint32_t`. -/
def u32Bytes (u : UInt32) : List UInt8 := leBytes 4 u.toNat
def u32OfBytes (bs : List UInt8) : UInt32 := UInt32.ofNat (leVal bs)

/-- Memory image of a point (what `reinterpret_cast<const char*>(this)` exposes). -/
def BitsPoint.image (p : BitsPoint) : List UInt8 :=
  u32Bytes p.x ++ u32Bytes p.y ++ u32Bytes p.z ++ u32Bytes p.intensity ++ u32Bytes p.factor

def BitsPoint.ofImage (bs : List UInt8) : BitsPoint :=
  { x := u32OfBytes (bs.take 4)
    y := u32OfBytes ((bs.drop 4).take 4)
    z := u32OfBytes ((bs.drop 8).take 4)
    intensity := u32OfBytes ((bs.drop 12).take 4)
    factor := u32OfBytes ((bs.drop 16).take 4) }

def RawTime.image (t : RawTime) : List UInt8 :=
  u32Bytes t.secs ++ u32Bytes t.nsecs ++ u32Bytes t.judge

def RawTime.ofImage (bs : List UInt8) : RawTime :=
  { secs := u32OfBytes (bs.take 4)
    nsecs := u32OfBytes ((bs.drop 4).take 4)
    judge := u32OfBytes ((bs.drop 8).take 4) }

/-- A default-constructed point (cloud_types.h:47-51); the bit pattern of `0.f` is 0. -/
def BitsPoint.zero : BitsPoint := ⟨0, 0, 0, 0, 0⟩

/-- cloud_types.cc:147-153 and 180-194 : bytes appended to an open, healthy stream.  (A stream
that is not open makes both return -1; write errors are never checked by the code.) -/
def serializeCloud (c : BitsCloud) : List UInt8 :=
  c.stamp.image ++ leBytes 8 c.points.length ++ c.points.flatMap BitsPoint.image

/-- An input stream: unread bytes and the `eofbit`/`failbit` state. -/
structure IStream where
  rest : List UInt8
  eof : Bool := false
  fail : Bool := false
  deriving Repr, DecidableEq

def IStream.good (s : IStream) : Bool := !s.eof && !s.fail

/-- `istream::read(buf, n)` where `old` is the previous content of the `n`-byte buffer: returns
the new buffer content.  A stream that is not good only gets `failbit`; hitting the end stores
the bytes that were there and sets `eofbit` and `failbit`. -/
def IStream.read (s : IStream) (old : List UInt8) : List UInt8 × IStream :=
  if !s.good then (old, { s with fail := true })
  else if old.length ≤ s.rest.length then
    (s.rest.take old.length, { s with rest := s.rest.drop old.length })
  else (s.rest ++ old.drop s.rest.length, { rest := [], eof := true, fail := true })

/-- cloud_types.cc:155-165 : success is `good() || eof()`. -/
def deserializePoint (s : IStream) (old : BitsPoint) : Bool × BitsPoint × IStream :=
  let r := s.read old.image
  (r.2.good || r.2.eof, BitsPoint.ofImage r.1, r.2)

/-- cloud_types.cc:222-226 : read into the already resized vector, stopping at the first failure. -/
def deserializePoints : IStream → List BitsPoint → Bool × List BitsPoint × IStream
  | s, [] => (true, [], s)
  | s, old :: olds =>
    let r := deserializePoint s old
    if !r.1 then (false, r.2.1 :: olds, r.2.2)
    else
      let t := deserializePoints r.2.2 olds
      (t.1, r.2.1 :: t.2.1, t.2.2)

/-- `points.resize(size)` (cloud_types.cc:221). -/
def resizePoints (l : List BitsPoint) (n : Nat) : List BitsPoint :=
  l.take n ++ List.replicate (n - l.length) BitsPoint.zero

/-- cloud_types.cc:207-230 on an open stream.  `maxPoints` is the largest vector the machine can
allocate; a larger `resize` throws (outcome `abort`).  The result is (return value is 0?, object
after the call). -/
def deserializeCloud (maxPoints : Nat) (s : IStream) (old : BitsCloud) : Outcome (Bool × BitsCloud) :=
  let r := s.read old.stamp.image
  let stamp := RawTime.ofImage r.1
  if !r.2.good then .ok (false, { old with stamp := stamp })
  else
    let q := r.2.read (leBytes 8 0)
    if !q.2.good then .ok (false, { old with stamp := stamp })
    else
      let size := leVal q.1
      if size > maxPoints then .abort
      else
        let t := deserializePoints q.2 (resizePoints old.points size)
        .ok (t.1, { stamp := stamp, points := t.2.1 })

end Verif
