/-!
# Model of edge and face keys

/repo/fem/PyNucleus_fem/meshCy.pyx 788-860.  `ENCODE_t` is `int64_t` (myTypes32.pxd 12,
myTypes64.pxd 12), `INDEX_t` is `int32_t` (myTypes32.pxd).  Signed C arithmetic is modelled by
wrapping around (C leaves overflow undefined; the theorems cover the range without overflow).
-/

namespace PyNucleus.EdgeKey

/-- Value of a 64 bit signed integer expression. -/
def wrap64 (z : Int) : Int := z.bmod (2 ^ 64)

/-- Value stored in an `INDEX_t` (32 bit). -/
def wrap32 (z : Int) : Int := z.bmod (2 ^ 32)

/-- `MAX_VAL_EDGE`, 790. -/
def maxValEdge : Int := 2 ^ 31

/-- `encode_edge`, 793-794. -/
def encodeEdge (e : Int × Int) : Int := wrap64 (wrap64 (maxValEdge * e.1) + e.2)

/-- `decode_edge`, 801-803 (`//` and `%` round towards minus infinity). -/
def decodeEdge (v : Int) : Int × Int := (wrap32 (v.fdiv maxValEdge), wrap32 (v.fmod maxValEdge))

/-- `sortEdge`, 812-816. -/
def sortEdge (c0 c1 : Int) : Int × Int := if c0 < c1 then (c0, c1) else (c1, c0)

/-- `encode_face`, 825-826. -/
def encodeFace (f : Int × Int × Int) : Int × Int := (f.1, encodeEdge (f.2.1, f.2.2))

/-- `decode_face`, 829-832. -/
def decodeFace (v : Int × Int) : Int × Int × Int := (v.1, decodeEdge v.2)

/-- `sortFace`, 839-856. -/
def sortFace (c0 c1 c2 : Int) : Int × Int × Int :=
  if c0 < c1 then
    if c0 < c2 then
      if c1 < c2 then (c0, c1, c2) else (c0, c2, c1)
    else (c2, c0, c1)
  else
    if c1 < c2 then
      if c0 < c2 then (c1, c0, c2) else (c1, c2, c0)
    else (c2, c1, c0)

end PyNucleus.EdgeKey
