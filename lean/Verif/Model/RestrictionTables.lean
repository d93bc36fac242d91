import Mathlib.Algebra.Field.Rat

/-!
# Tables of restriction operators

The lists of the files /repo/multilevelSolver/PyNucleus_multilevelSolver/restriction_{dim}D_{elements}.pxi.  A group `(I, entries)` stands for

    dof = coarse_DoFMap.cell2dof(cellNo, I)
    if dof >= 0: entries

The entry `(q, J)` is `add(sPat, dof, fine_DoFMap.cell2dof(subCellNo_q, J))`, the entry `(q, J, n)` is
`enterData(R, dof, fine_DoFMap.cell2dof(subCellNo_q, J), v)` with the decimal number `v = n / 10 ^ digits`.
-/

namespace PyNucleus.Restriction

/-- One of the functions `buildRestriction_*`: dimension, orders of the coarse and fine elements, number of fine cells per coarse cell, groups of the two loops, for
every cell and for the three cases of the conditions on the fine mesh. -/
structure Table where
  dim : Nat
  coarse : Nat
  fine : Nat
  sub : Nat
  digits : Nat
  pattern : List (Nat × List (Nat × Nat))
  patternCase : Nat → List (Nat × List (Nat × Nat))
  data : List (Nat × List (Nat × Nat × Int))
  dataCase : Nat → List (Nat × List (Nat × Nat × Int))

/-- restriction_1D_P0.pxi 18-25 and 30-36. -/
def t1p0 : Table where
  dim := 1
  coarse := 0
  fine := 0
  sub := 2
  digits := 1
  pattern :=
    [(0, [(0, 0), (1, 0)])]
  patternCase _ := []
  data :=
    [(0, [(0, 0, 10), (1, 0, 10)])]
  dataCase _ := []

/-- restriction_2D_P0.pxi 18-29 and 34-44. -/
def t2p0 : Table where
  dim := 2
  coarse := 0
  fine := 0
  sub := 4
  digits := 1
  pattern :=
    [(0, [(0, 0), (1, 0), (2, 0), (3, 0)])]
  patternCase _ := []
  data :=
    [(0, [(0, 0, 10), (1, 0, 10), (2, 0, 10), (3, 0, 10)])]
  dataCase _ := []

/-- restriction_3D_P0.pxi 18-56 and 61-98. -/
def t3p0 : Table where
  dim := 3
  coarse := 0
  fine := 0
  sub := 8
  digits := 1
  pattern :=
    [(0, [(1, 0), (3, 0), (0, 0), (2, 0)])]
  patternCase
    | 0 =>
      [(0, [(5, 0), (7, 0), (6, 0), (4, 0)])]
    | 1 =>
      [(0, [(7, 0), (4, 0), (5, 0), (6, 0)])]
    | _ =>
      [(0, [(4, 0), (5, 0), (6, 0), (7, 0)])]
  data :=
    [(0, [(1, 0, 10), (3, 0, 10), (0, 0, 10), (2, 0, 10)])]
  dataCase
    | 0 =>
      [(0, [(5, 0, 10), (7, 0, 10), (6, 0, 10), (4, 0, 10)])]
    | 1 =>
      [(0, [(7, 0, 10), (4, 0, 10), (5, 0, 10), (6, 0, 10)])]
    | _ =>
      [(0, [(4, 0, 10), (5, 0, 10), (6, 0, 10), (7, 0, 10)])]

/-- restriction_1D_P1.pxi 18-29 and 34-44. -/
def t1p1 : Table where
  dim := 1
  coarse := 1
  fine := 1
  sub := 2
  digits := 1
  pattern :=
    [(0, [(0, 0), (0, 1)]), (1, [(0, 1), (1, 1)])]
  patternCase _ := []
  data :=
    [(0, [(0, 0, 10), (0, 1, 5)]), (1, [(0, 1, 5), (1, 1, 10)])]
  dataCase _ := []

/-- restriction_2D_P1.pxi 18-38 and 43-62. -/
def t2p1 : Table where
  dim := 2
  coarse := 1
  fine := 1
  sub := 4
  digits := 1
  pattern :=
    [(0, [(0, 0), (0, 1), (0, 2)]), (1, [(0, 1), (1, 0), (1, 1)]), (2, [(0, 2), (1, 1), (2, 0)])]
  patternCase _ := []
  data :=
    [(0, [(0, 0, 10), (0, 1, 5), (0, 2, 5)]), (1, [(0, 1, 5), (1, 0, 10), (1, 1, 5)]), (2, [(0, 2, 5), (1, 1, 5), (2, 0, 10)])]
  dataCase _ := []

/-- restriction_3D_P1.pxi 18-52 and 57-90. -/
def t3p1 : Table where
  dim := 3
  coarse := 1
  fine := 1
  sub := 8
  digits := 1
  pattern :=
    [(0, [(0, 3), (1, 0), (2, 0), (0, 0)]), (1, [(3, 1), (1, 0), (1, 2), (1, 1)]), (2, [(3, 2), (2, 2), (1, 2), (2, 0)]), (3, [(0, 3), (3, 1), (2, 3),
    (3, 3)])]
  patternCase _ := []
  data :=
    [(0, [(0, 3, 5), (1, 0, 5), (2, 0, 5), (0, 0, 10)]), (1, [(3, 1, 5), (1, 0, 5), (1, 2, 5), (1, 1, 10)]), (2, [(3, 2, 5), (2, 2, 10), (1, 2, 5),
    (2, 0, 5)]), (3, [(0, 3, 5), (3, 1, 5), (2, 3, 5), (3, 3, 10)])]
  dataCase _ := []

/-- restriction_1D_P1_P2.pxi 18-28 and 33-42. -/
def t1p1p2 : Table where
  dim := 1
  coarse := 1
  fine := 2
  sub := 1
  digits := 1
  pattern :=
    [(0, [(0, 0), (0, 2)]), (1, [(0, 1), (0, 2)])]
  patternCase _ := []
  data :=
    [(0, [(0, 0, 10), (0, 2, 5)]), (1, [(0, 1, 10), (0, 2, 5)])]
  dataCase _ := []

/-- restriction_2D_P1_P2.pxi 18-35 and 40-56. -/
def t2p1p2 : Table where
  dim := 2
  coarse := 1
  fine := 2
  sub := 1
  digits := 1
  pattern :=
    [(0, [(0, 0), (0, 3), (0, 5)]), (1, [(0, 1), (0, 3), (0, 4)]), (2, [(0, 2), (0, 4), (0, 5)])]
  patternCase _ := []
  data :=
    [(0, [(0, 0, 10), (0, 3, 5), (0, 5, 5)]), (1, [(0, 1, 10), (0, 3, 5), (0, 4, 5)]), (2, [(0, 2, 10), (0, 4, 5), (0, 5, 5)])]
  dataCase _ := []

/-- restriction_3D_P1_P2.pxi 18-44 and 49-74. -/
def t3p1p2 : Table where
  dim := 3
  coarse := 1
  fine := 2
  sub := 1
  digits := 1
  pattern :=
    [(0, [(0, 0), (0, 4), (0, 6), (0, 7)]), (1, [(0, 1), (0, 4), (0, 5), (0, 8)]), (2, [(0, 2), (0, 5), (0, 6), (0, 9)]), (3, [(0, 3), (0, 7), (0, 8),
    (0, 9)])]
  patternCase _ := []
  data :=
    [(0, [(0, 0, 10), (0, 4, 5), (0, 6, 5), (0, 7, 5)]), (1, [(0, 1, 10), (0, 4, 5), (0, 5, 5), (0, 8, 5)]), (2, [(0, 2, 10), (0, 5, 5), (0, 6, 5),
    (0, 9, 5)]), (3, [(0, 3, 10), (0, 7, 5), (0, 8, 5), (0, 9, 5)])]
  dataCase _ := []

/-- restriction_1D_P1_P3.pxi 18-30 and 35-46. -/
def t1p1p3 : Table where
  dim := 1
  coarse := 1
  fine := 3
  sub := 1
  digits := 9
  pattern :=
    [(0, [(0, 0), (0, 2), (0, 3)]), (1, [(0, 1), (0, 2), (0, 3)])]
  patternCase _ := []
  data :=
    [(0, [(0, 0, 1000000000), (0, 2, 666666667), (0, 3, 333333333)]), (1, [(0, 1, 1000000000), (0, 2, 333333333), (0, 3, 666666667)])]
  dataCase _ := []

/-- restriction_2D_P1_P3.pxi 18-44 and 49-74. -/
def t2p1p3 : Table where
  dim := 2
  coarse := 1
  fine := 3
  sub := 1
  digits := 9
  pattern :=
    [(0, [(0, 0), (0, 3), (0, 4), (0, 7), (0, 8), (0, 9)]), (1, [(0, 1), (0, 3), (0, 4), (0, 5), (0, 6), (0, 9)]), (2, [(0, 2), (0, 5), (0, 6), (0,
    7), (0, 8), (0, 9)])]
  patternCase _ := []
  data :=
    [(0, [(0, 0, 1000000000), (0, 3, 666666667), (0, 4, 333333333), (0, 7, 333333333), (0, 8, 666666667), (0, 9, 333333333)]), (1, [(0, 1,
    1000000000), (0, 3, 333333333), (0, 4, 666666667), (0, 5, 666666667), (0, 6, 333333333), (0, 9, 333333333)]), (2, [(0, 2, 1000000000), (0, 5,
    333333333), (0, 6, 666666667), (0, 7, 666666667), (0, 8, 333333333), (0, 9, 333333333)])]
  dataCase _ := []

/-- restriction_3D_P1_P3.pxi 18-68 and 73-122. -/
def t3p1p3 : Table where
  dim := 3
  coarse := 1
  fine := 3
  sub := 1
  digits := 9
  pattern :=
    [(0, [(0, 0), (0, 4), (0, 5), (0, 8), (0, 9), (0, 10), (0, 11), (0, 16), (0, 17), (0, 19)]), (1, [(0, 1), (0, 4), (0, 5), (0, 6), (0, 7), (0, 12),
    (0, 13), (0, 16), (0, 17), (0, 18)]), (2, [(0, 2), (0, 6), (0, 7), (0, 8), (0, 9), (0, 14), (0, 15), (0, 16), (0, 18), (0, 19)]), (3, [(0, 3), (0,
    10), (0, 11), (0, 12), (0, 13), (0, 14), (0, 15), (0, 17), (0, 18), (0, 19)])]
  patternCase _ := []
  data :=
    [(0, [(0, 0, 1000000000), (0, 4, 666666667), (0, 5, 333333333), (0, 8, 333333333), (0, 9, 666666667), (0, 10, 666666667), (0, 11, 333333333), (0,
    16, 333333333), (0, 17, 333333333), (0, 19, 333333333)]), (1, [(0, 1, 1000000000), (0, 4, 333333333), (0, 5, 666666667), (0, 6, 666666667), (0, 7,
    333333333), (0, 12, 666666667), (0, 13, 333333333), (0, 16, 333333333), (0, 17, 333333333), (0, 18, 333333333)]), (2, [(0, 2, 1000000000), (0, 6,
    333333333), (0, 7, 666666667), (0, 8, 666666667), (0, 9, 333333333), (0, 14, 666666667), (0, 15, 333333333), (0, 16, 333333333), (0, 18,
    333333333), (0, 19, 333333333)]), (3, [(0, 3, 1000000000), (0, 10, 333333333), (0, 11, 666666667), (0, 12, 333333333), (0, 13, 666666667), (0, 14,
    333333333), (0, 15, 666666667), (0, 17, 333333333), (0, 18, 333333333), (0, 19, 333333333)])]
  dataCase _ := []

/-- restriction_1D_P2.pxi 18-36 and 41-58. -/
def t1p2 : Table where
  dim := 1
  coarse := 2
  fine := 2
  sub := 2
  digits := 3
  pattern :=
    [(0, [(0, 0), (0, 2), (1, 2)]), (1, [(0, 2), (1, 1), (1, 2)]), (2, [(0, 1), (0, 2), (1, 2)])]
  patternCase _ := []
  data :=
    [(0, [(0, 0, 1000), (0, 2, 375), (1, 2, -125)]), (1, [(0, 2, -125), (1, 1, 1000), (1, 2, 375)]), (2, [(0, 1, 1000), (0, 2, 750), (1, 2, 750)])]
  dataCase _ := []

/-- restriction_2D_P2.pxi 18-74 and 79-134. -/
def t2p2 : Table where
  dim := 2
  coarse := 2
  fine := 2
  sub := 4
  digits := 3
  pattern :=
    [(0, [(0, 0), (0, 3), (0, 5), (1, 4), (1, 5), (2, 3), (2, 4)]), (1, [(0, 3), (0, 4), (1, 0), (1, 3), (1, 5), (2, 4), (2, 5)]), (2, [(0, 4), (0,
    5), (1, 3), (1, 4), (2, 0), (2, 3), (2, 5)]), (3, [(0, 1), (0, 3), (0, 4), (1, 4), (1, 5), (2, 4)]), (4, [(0, 4), (1, 1), (1, 3), (1, 4), (2, 4),
    (2, 5)]), (5, [(0, 2), (0, 4), (0, 5), (1, 4), (2, 3), (2, 4)])]
  patternCase _ := []
  data :=
    [(0, [(0, 0, 1000), (0, 3, 375), (0, 5, 375), (1, 4, -125), (1, 5, -125), (2, 3, -125), (2, 4, -125)]), (1, [(0, 3, -125), (0, 4, -125), (1, 0,
    1000), (1, 3, 375), (1, 5, 375), (2, 4, -125), (2, 5, -125)]), (2, [(0, 4, -125), (0, 5, -125), (1, 3, -125), (1, 4, -125), (2, 0, 1000), (2, 3,
    375), (2, 5, 375)]), (3, [(0, 1, 1000), (0, 3, 750), (0, 4, 500), (1, 4, 500), (1, 5, 750), (2, 4, 250)]), (4, [(0, 4, 250), (1, 1, 1000), (1, 3,
    750), (1, 4, 500), (2, 4, 500), (2, 5, 750)]), (5, [(0, 2, 1000), (0, 4, 500), (0, 5, 750), (1, 4, 250), (2, 3, 750), (2, 4, 500)])]
  dataCase _ := []

/-- restriction_3D_P2.pxi 18-248 and 253-482. -/
def t3p2 : Table where
  dim := 3
  coarse := 2
  fine := 2
  sub := 8
  digits := 3
  pattern :=
    [(0, [(2, 4), (0, 7), (3, 4), (3, 7), (0, 6), (2, 6), (0, 4), (3, 6), (1, 6), (0, 0), (1, 4), (2, 7), (1, 7)]), (1, [(2, 8), (3, 5), (2, 4), (3,
    8), (3, 4), (0, 8), (1, 4), (0, 5), (1, 1), (0, 4), (1, 5), (1, 8), (2, 5)]), (2, [(3, 5), (0, 9), (2, 6), (3, 9), (3, 6), (1, 6), (2, 2), (0, 5),
    (0, 6), (2, 5), (1, 9), (1, 5), (2, 9)]), (3, [(2, 9), (3, 8), (2, 8), (0, 9), (3, 9), (3, 7), (0, 8), (0, 7), (3, 3), (1, 9), (2, 7), (1, 7), (1,
    8)]), (4, [(4, 0), (1, 4), (1, 7), (2, 4), (3, 4), (0, 8), (1, 6), (0, 4), (0, 5)]), (5, [(2, 5), (1, 9), (2, 4), (2, 8), (2, 1), (3, 5), (1, 6),
    (0, 5), (1, 5)]), (6, [(0, 2), (2, 7), (2, 4), (0, 9), (0, 6), (2, 6), (3, 6), (1, 6), (0, 5)]), (7, [(1, 7), (0, 3), (3, 7), (0, 9), (2, 7), (0,
    8), (3, 4), (3, 6), (0, 7)]), (8, [(1, 9), (3, 1), (3, 5), (1, 7), (2, 8), (0, 8), (3, 8), (3, 4), (1, 8)]), (9, [(2, 7), (3, 5), (3, 2), (2, 9),
    (0, 9), (3, 9), (2, 8), (3, 6), (1, 9)])]
  patternCase
    | 0 =>
      [(0, [(5, 4)]), (1, [(5, 4)]), (2, [(5, 4)]), (3, [(5, 4)]), (4, [(7, 7)]), (5, [(7, 7)]), (6, [(7, 7)]), (7, [(7, 7)]), (8, [(7, 7)]), (9, [(7,
      7)])]
    | 1 =>
      [(0, [(6, 6)]), (1, [(6, 6)]), (2, [(6, 6)]), (3, [(6, 6)]), (4, [(5, 9)]), (5, [(5, 9)]), (6, [(5, 9)]), (7, [(5, 9)]), (8, [(5, 9)]), (9, [(5,
      9)])]
    | _ =>
      [(0, [(5, 7)]), (1, [(5, 7)]), (2, [(5, 7)]), (3, [(5, 7)]), (4, [(7, 8)]), (5, [(7, 8)]), (6, [(7, 8)]), (7, [(7, 8)]), (8, [(7, 8)]), (9, [(7,
      8)])]
  data :=
    [(0, [(2, 4, -125), (0, 7, 375), (3, 4, -125), (3, 7, -125), (0, 6, 375), (2, 6, -125), (0, 4, 375), (3, 6, -125), (1, 6, -125), (0, 0, 1000), (1,
    4, -125), (2, 7, -125), (1, 7, -125)]), (1, [(2, 8, -125), (3, 5, -125), (2, 4, -125), (3, 8, -125), (3, 4, -125), (0, 8, -125), (1, 4, 375), (0,
    5, -125), (1, 1, 1000), (0, 4, -125), (1, 5, 375), (1, 8, 375), (2, 5, -125)]), (2, [(3, 5, -125), (0, 9, -125), (2, 6, 375), (3, 9, -125), (3, 6,
    -125), (1, 6, -125), (2, 2, 1000), (0, 5, -125), (0, 6, -125), (2, 5, 375), (1, 9, -125), (1, 5, -125), (2, 9, 375)]), (3, [(2, 9, -125), (3, 8,
    375), (2, 8, -125), (0, 9, -125), (3, 9, 375), (3, 7, 375), (0, 8, -125), (0, 7, -125), (3, 3, 1000), (1, 9, -125), (2, 7, -125), (1, 7, -125),
    (1, 8, -125)]), (4, [(4, 0, 1000), (1, 4, 750), (1, 7, 500), (2, 4, 250), (3, 4, 250), (0, 8, 500), (1, 6, 500), (0, 4, 750), (0, 5, 500)]), (5,
    [(2, 5, 750), (1, 9, 500), (2, 4, 500), (2, 8, 500), (2, 1, 1000), (3, 5, 250), (1, 6, 500), (0, 5, 250), (1, 5, 750)]), (6, [(0, 2, 1000), (2, 7,
    500), (2, 4, 500), (0, 9, 500), (0, 6, 750), (2, 6, 750), (3, 6, 250), (1, 6, 250), (0, 5, 500)]), (7, [(1, 7, 250), (0, 3, 1000), (3, 7, 750),
    (0, 9, 500), (2, 7, 250), (0, 8, 500), (3, 4, 500), (3, 6, 500), (0, 7, 750)]), (8, [(1, 9, 500), (3, 1, 1000), (3, 5, 500), (1, 7, 500), (2, 8,
    250), (0, 8, 250), (3, 8, 750), (3, 4, 500), (1, 8, 750)]), (9, [(2, 7, 500), (3, 5, 500), (3, 2, 1000), (2, 9, 750), (0, 9, 250), (3, 9, 750),
    (2, 8, 500), (3, 6, 500), (1, 9, 250)])]
  dataCase
    | 0 =>
      [(0, [(5, 4, -125)]), (1, [(5, 4, -125)]), (2, [(5, 4, -125)]), (3, [(5, 4, -125)]), (4, [(7, 7, 250)]), (5, [(7, 7, 250)]), (6, [(7, 7, 250)]),
      (7, [(7, 7, 250)]), (8, [(7, 7, 250)]), (9, [(7, 7, 250)])]
    | 1 =>
      [(0, [(6, 6, -125)]), (1, [(6, 6, -125)]), (2, [(6, 6, -125)]), (3, [(6, 6, -125)]), (4, [(5, 9, 250)]), (5, [(5, 9, 250)]), (6, [(5, 9, 250)]),
      (7, [(5, 9, 250)]), (8, [(5, 9, 250)]), (9, [(5, 9, 250)])]
    | _ =>
      [(0, [(5, 7, -125)]), (1, [(5, 7, -125)]), (2, [(5, 7, -125)]), (3, [(5, 7, -125)]), (4, [(7, 8, 250)]), (5, [(7, 8, 250)]), (6, [(7, 8, 250)]),
      (7, [(7, 8, 250)]), (8, [(7, 8, 250)]), (9, [(7, 8, 250)])]

/-- restriction_1D_P2_P3.pxi 18-34 and 39-54. -/
def t1p2p3 : Table where
  dim := 1
  coarse := 2
  fine := 3
  sub := 1
  digits := 9
  pattern :=
    [(0, [(0, 0), (0, 2), (0, 3)]), (1, [(0, 1), (0, 2), (0, 3)]), (2, [(0, 2), (0, 3)])]
  patternCase _ := []
  data :=
    [(0, [(0, 0, 1000000000), (0, 2, 222222222), (0, 3, -111111111)]), (1, [(0, 1, 1000000000), (0, 2, -111111111), (0, 3, 222222222)]), (2, [(0, 2,
    888888889), (0, 3, 888888889)])]
  dataCase _ := []

/-- restriction_2D_P2_P3.pxi 18-59 and 64-104. -/
def t2p2p3 : Table where
  dim := 2
  coarse := 2
  fine := 3
  sub := 1
  digits := 9
  pattern :=
    [(0, [(0, 0), (0, 3), (0, 4), (0, 7), (0, 8), (0, 9)]), (1, [(0, 1), (0, 3), (0, 4), (0, 5), (0, 6), (0, 9)]), (2, [(0, 2), (0, 5), (0, 6), (0,
    7), (0, 8), (0, 9)]), (3, [(0, 3), (0, 4), (0, 9)]), (4, [(0, 5), (0, 6), (0, 9)]), (5, [(0, 7), (0, 8), (0, 9)])]
  patternCase _ := []
  data :=
    [(0, [(0, 0, 1000000000), (0, 3, 222222222), (0, 4, -111111111), (0, 7, -111111111), (0, 8, 222222222), (0, 9, -111111111)]), (1, [(0, 1,
    1000000000), (0, 3, -111111111), (0, 4, 222222222), (0, 5, 222222222), (0, 6, -111111111), (0, 9, -111111111)]), (2, [(0, 2, 1000000000), (0, 5,
    -111111111), (0, 6, 222222222), (0, 7, 222222222), (0, 8, -111111111), (0, 9, -111111111)]), (3, [(0, 3, 888888889), (0, 4, 888888889), (0, 9,
    444444444)]), (4, [(0, 5, 888888889), (0, 6, 888888889), (0, 9, 444444444)]), (5, [(0, 7, 888888889), (0, 8, 888888889), (0, 9, 444444444)])]
  dataCase _ := []

/-- restriction_3D_P2_P3.pxi 18-104 and 109-194. -/
def t3p2p3 : Table where
  dim := 3
  coarse := 2
  fine := 3
  sub := 1
  digits := 9
  pattern :=
    [(0, [(0, 0), (0, 4), (0, 5), (0, 8), (0, 9), (0, 10), (0, 11), (0, 16), (0, 17), (0, 19)]), (1, [(0, 1), (0, 4), (0, 5), (0, 6), (0, 7), (0, 12),
    (0, 13), (0, 16), (0, 17), (0, 18)]), (2, [(0, 2), (0, 6), (0, 7), (0, 8), (0, 9), (0, 14), (0, 15), (0, 16), (0, 18), (0, 19)]), (3, [(0, 3), (0,
    10), (0, 11), (0, 12), (0, 13), (0, 14), (0, 15), (0, 17), (0, 18), (0, 19)]), (4, [(0, 4), (0, 5), (0, 16), (0, 17)]), (5, [(0, 6), (0, 7), (0,
    16), (0, 18)]), (6, [(0, 8), (0, 9), (0, 16), (0, 19)]), (7, [(0, 10), (0, 11), (0, 17), (0, 19)]), (8, [(0, 12), (0, 13), (0, 17), (0, 18)]), (9,
    [(0, 14), (0, 15), (0, 18), (0, 19)])]
  patternCase _ := []
  data :=
    [(0, [(0, 0, 1000000000), (0, 4, 222222222), (0, 5, -111111111), (0, 8, -111111111), (0, 9, 222222222), (0, 10, 222222222), (0, 11, -111111111),
    (0, 16, -111111111), (0, 17, -111111111), (0, 19, -111111111)]), (1, [(0, 1, 1000000000), (0, 4, -111111111), (0, 5, 222222222), (0, 6,
    222222222), (0, 7, -111111111), (0, 12, 222222222), (0, 13, -111111111), (0, 16, -111111111), (0, 17, -111111111), (0, 18, -111111111)]), (2, [(0,
    2, 1000000000), (0, 6, -111111111), (0, 7, 222222222), (0, 8, 222222222), (0, 9, -111111111), (0, 14, 222222222), (0, 15, -111111111), (0, 16,
    -111111111), (0, 18, -111111111), (0, 19, -111111111)]), (3, [(0, 3, 1000000000), (0, 10, -111111111), (0, 11, 222222222), (0, 12, -111111111),
    (0, 13, 222222222), (0, 14, -111111111), (0, 15, 222222222), (0, 17, -111111111), (0, 18, -111111111), (0, 19, -111111111)]), (4, [(0, 4,
    888888889), (0, 5, 888888889), (0, 16, 444444444), (0, 17, 444444444)]), (5, [(0, 6, 888888889), (0, 7, 888888889), (0, 16, 444444444), (0, 18,
    444444444)]), (6, [(0, 8, 888888889), (0, 9, 888888889), (0, 16, 444444444), (0, 19, 444444444)]), (7, [(0, 10, 888888889), (0, 11, 888888889),
    (0, 17, 444444444), (0, 19, 444444444)]), (8, [(0, 12, 888888889), (0, 13, 888888889), (0, 17, 444444444), (0, 18, 444444444)]), (9, [(0, 14,
    888888889), (0, 15, 888888889), (0, 18, 444444444), (0, 19, 444444444)])]
  dataCase _ := []

/-- restriction_1D_P3.pxi 18-45 and 50-76. -/
def t1p3 : Table where
  dim := 1
  coarse := 3
  fine := 3
  sub := 2
  digits := 4
  pattern :=
    [(0, [(0, 0), (0, 1), (0, 2), (1, 3)]), (1, [(0, 1), (0, 2), (1, 1), (1, 3)]), (2, [(0, 1), (0, 2), (0, 3), (1, 3)]), (3, [(0, 1), (0, 2), (1, 2),
    (1, 3)])]
  patternCase _ := []
  data :=
    [(0, [(0, 0, 10000), (0, 1, -625), (0, 2, 3125), (1, 3, 625)]), (1, [(0, 1, -625), (0, 2, 625), (1, 1, 10000), (1, 3, 3125)]), (2, [(0, 1, 5625),
    (0, 2, 9375), (0, 3, 10000), (1, 3, -3125)]), (3, [(0, 1, 5625), (0, 2, -3125), (1, 2, 10000), (1, 3, 9375)])]
  dataCase _ := []

/-- restriction_2D_P3.pxi 18-158 and 163-302. -/
def t2p3 : Table where
  dim := 2
  coarse := 3
  fine := 3
  sub := 4
  digits := 4
  pattern :=
    [(0, [(0, 0), (0, 1), (0, 2), (0, 3), (0, 5), (0, 6), (0, 8), (1, 5), (1, 8), (1, 9), (2, 3), (2, 6), (2, 9)]), (1, [(0, 1), (0, 3), (0, 6), (0,
    9), (1, 0), (1, 1), (1, 3), (1, 5), (1, 6), (1, 8), (2, 5), (2, 8), (2, 9)]), (2, [(0, 2), (0, 5), (0, 8), (0, 9), (1, 1), (1, 3), (1, 6), (1, 9),
    (2, 0), (2, 3), (2, 5), (2, 6), (2, 8)]), (3, [(0, 1), (0, 3), (0, 4), (0, 5), (0, 6), (0, 9), (1, 5), (1, 8), (1, 9), (2, 6), (2, 9)]), (4, [(0,
    1), (0, 3), (0, 6), (0, 9), (1, 5), (1, 6), (1, 7), (1, 8), (1, 9), (2, 5), (2, 9)]), (5, [(0, 6), (0, 9), (1, 1), (1, 3), (1, 4), (1, 5), (1, 6),
    (1, 9), (2, 5), (2, 8), (2, 9)]), (6, [(0, 5), (0, 9), (1, 1), (1, 3), (1, 6), (1, 9), (2, 5), (2, 6), (2, 7), (2, 8), (2, 9)]), (7, [(0, 2), (0,
    5), (0, 8), (0, 9), (1, 6), (1, 9), (2, 3), (2, 4), (2, 5), (2, 6), (2, 9)]), (8, [(0, 2), (0, 5), (0, 6), (0, 7), (0, 8), (0, 9), (1, 5), (1, 9),
    (2, 3), (2, 6), (2, 9)]), (9, [(0, 5), (0, 6), (0, 9), (1, 5), (1, 6), (1, 9), (2, 5), (2, 6), (2, 9), (3, 9)])]
  patternCase _ := []
  data :=
    [(0, [(0, 0, 10000), (0, 1, -625), (0, 2, -625), (0, 3, 3125), (0, 5, -625), (0, 6, -625), (0, 8, 3125), (1, 5, 625), (1, 8, 625), (1, 9, 625),
    (2, 3, 625), (2, 6, 625), (2, 9, 625)]), (1, [(0, 1, -625), (0, 3, 625), (0, 6, 625), (0, 9, 625), (1, 0, 10000), (1, 1, -625), (1, 3, 3125), (1,
    5, -625), (1, 6, -625), (1, 8, 3125), (2, 5, 625), (2, 8, 625), (2, 9, 625)]), (2, [(0, 2, -625), (0, 5, 625), (0, 8, 625), (0, 9, 625), (1, 1,
    -625), (1, 3, 625), (1, 6, 625), (1, 9, 625), (2, 0, 10000), (2, 3, 3125), (2, 5, -625), (2, 6, -625), (2, 8, 3125)]), (3, [(0, 1, 5625), (0, 3,
    9375), (0, 4, 10000), (0, 5, 3750), (0, 6, 1875), (0, 9, 5000), (1, 5, -1875), (1, 8, -3125), (1, 9, -2500), (2, 6, -1250), (2, 9, -625)]), (4,
    [(0, 1, 5625), (0, 3, -3125), (0, 6, -1875), (0, 9, -2500), (1, 5, 1875), (1, 6, 3750), (1, 7, 10000), (1, 8, 9375), (1, 9, 5000), (2, 5, -1250),
    (2, 9, -625)]), (5, [(0, 6, -1250), (0, 9, -625), (1, 1, 5625), (1, 3, 9375), (1, 4, 10000), (1, 5, 3750), (1, 6, 1875), (1, 9, 5000), (2, 5,
    -1875), (2, 8, -3125), (2, 9, -2500)]), (6, [(0, 5, -1250), (0, 9, -625), (1, 1, 5625), (1, 3, -3125), (1, 6, -1875), (1, 9, -2500), (2, 5, 1875),
    (2, 6, 3750), (2, 7, 10000), (2, 8, 9375), (2, 9, 5000)]), (7, [(0, 2, 5625), (0, 5, -1875), (0, 8, -3125), (0, 9, -2500), (1, 6, -1250), (1, 9,
    -625), (2, 3, 9375), (2, 4, 10000), (2, 5, 3750), (2, 6, 1875), (2, 9, 5000)]), (8, [(0, 2, 5625), (0, 5, 1875), (0, 6, 3750), (0, 7, 10000), (0,
    8, 9375), (0, 9, 5000), (1, 5, -1250), (1, 9, -625), (2, 3, -3125), (2, 6, -1875), (2, 9, -2500)]), (9, [(0, 5, 7500), (0, 6, 7500), (0, 9, 5000),
    (1, 5, 7500), (1, 6, 7500), (1, 9, 5000), (2, 5, 7500), (2, 6, 7500), (2, 9, 5000), (3, 9, 10000)])]
  dataCase _ := []

/-- restriction_3D_P3.pxi 18-864 and 869-1714. -/
def t3p3 : Table where
  dim := 3
  coarse := 3
  fine := 3
  sub := 8
  digits := 4
  pattern :=
    [(0, [(2, 0), (3, 5), (2, 17), (2, 19), (3, 17), (4, 0), (0, 3), (1, 19), (0, 15), (0, 10), (1, 11), (0, 12), (0, 4), (0, 9), (1, 8), (0, 14), (3,
    16), (1, 16), (3, 11), (3, 19), (0, 6), (2, 16), (2, 11), (0, 18), (0, 7), (0, 13), (1, 17), (2, 5), (0, 0), (3, 8), (1, 5), (2, 8)]), (1, [(2,
    4), (2, 17), (3, 17), (1, 8), (4, 0), (1, 15), (1, 10), (3, 4), (0, 18), (0, 7), (1, 3), (1, 6), (3, 18), (1, 14), (0, 13), (1, 2), (2, 13), (3,
    16), (1, 1), (3, 7), (0, 4), (3, 13), (0, 16), (0, 17), (1, 12), (2, 16), (1, 5), (1, 19), (2, 7), (1, 9), (2, 18), (1, 11)]), (2, [(2, 0), (0,
    19), (0, 6), (2, 13), (1, 19), (2, 12), (2, 3), (2, 2), (1, 9), (2, 5), (0, 18), (2, 11), (3, 18), (1, 2), (2, 4), (1, 15), (1, 18), (3, 6), (3,
    16), (1, 16), (0, 9), (2, 17), (1, 6), (3, 19), (2, 10), (2, 8), (0, 16), (2, 7), (0, 15), (3, 15), (2, 14), (3, 9)]), (3, [(2, 14), (0, 19), (2,
    19), (2, 17), (3, 16), (3, 6), (0, 3), (3, 7), (1, 19), (2, 3), (2, 10), (3, 3), (0, 18), (1, 3), (3, 13), (0, 10), (3, 15), (1, 18), (3, 8), (3,
    9), (3, 11), (2, 12), (1, 10), (3, 5), (0, 17), (1, 14), (1, 12), (1, 17), (0, 12), (3, 4), (0, 14), (2, 18)]), (4, [(0, 5), (2, 5), (1, 8), (1,
    0), (0, 18), (1, 5), (3, 5), (3, 16), (2, 16), (0, 13), (0, 7), (3, 17), (0, 12), (1, 16), (0, 6), (0, 4), (0, 16), (1, 19), (0, 17), (1, 11), (2,
    17), (1, 17)]), (5, [(0, 4), (1, 9), (1, 17), (0, 13), (1, 5), (2, 4), (1, 0), (1, 19), (3, 16), (2, 16), (1, 11), (1, 10), (3, 4), (1, 8), (1,
    16), (1, 4), (0, 16), (0, 17), (3, 17), (0, 18), (2, 17), (0, 7)]), (6, [(2, 18), (1, 2), (0, 18), (3, 18), (2, 13), (2, 7), (1, 19), (1, 8), (3,
    16), (1, 9), (0, 16), (0, 7), (1, 18), (2, 17), (1, 14), (1, 15), (1, 16), (2, 16), (1, 6), (3, 7), (2, 4), (1, 7)]), (7, [(1, 2), (0, 18), (3,
    18), (2, 7), (2, 4), (2, 18), (2, 17), (1, 15), (2, 6), (0, 6), (2, 12), (3, 16), (2, 13), (2, 5), (0, 16), (1, 18), (1, 16), (3, 6), (2, 16), (1,
    6), (1, 9), (1, 19)]), (8, [(2, 8), (1, 19), (2, 19), (0, 19), (2, 17), (3, 9), (2, 9), (3, 16), (1, 16), (3, 19), (1, 9), (0, 15), (0, 6), (2,
    0), (0, 16), (2, 16), (2, 11), (0, 9), (2, 5), (2, 4), (0, 18), (2, 10)]), (9, [(0, 7), (1, 19), (0, 19), (2, 19), (2, 8), (3, 8), (0, 6), (0, 8),
    (0, 18), (3, 16), (1, 16), (2, 5), (2, 11), (3, 19), (0, 14), (2, 17), (2, 16), (1, 8), (0, 9), (0, 16), (2, 0), (0, 15)]), (10, [(2, 11), (3,
    11), (0, 12), (3, 0), (0, 14), (1, 19), (0, 19), (3, 17), (0, 13), (3, 16), (0, 18), (0, 10), (3, 8), (1, 11), (0, 15), (0, 11), (3, 19), (1, 17),
    (3, 5), (2, 19), (0, 17), (2, 17)]), (11, [(3, 4), (3, 0), (1, 19), (0, 19), (3, 17), (3, 5), (0, 12), (2, 10), (3, 10), (3, 16), (0, 14), (0,
    10), (3, 19), (1, 17), (3, 9), (0, 17), (1, 10), (3, 8), (3, 11), (2, 19), (0, 18), (2, 17)]), (12, [(3, 13), (3, 4), (1, 11), (1, 12), (0, 18),
    (1, 17), (3, 17), (1, 3), (3, 16), (3, 7), (1, 13), (1, 19), (3, 18), (1, 15), (0, 17), (1, 18), (0, 13), (2, 13), (1, 10), (2, 18), (1, 14), (2,
    17)]), (13, [(0, 18), (0, 12), (3, 17), (1, 12), (1, 3), (3, 6), (3, 12), (1, 10), (3, 4), (3, 18), (1, 14), (0, 17), (3, 16), (1, 18), (3, 7),
    (3, 13), (2, 18), (2, 12), (3, 5), (1, 19), (2, 17), (1, 17)]), (14, [(0, 15), (2, 3), (1, 19), (3, 15), (0, 18), (2, 19), (3, 6), (2, 17), (2,
    18), (2, 13), (2, 10), (3, 16), (2, 14), (2, 15), (3, 18), (1, 18), (2, 11), (3, 9), (2, 12), (1, 15), (3, 19), (0, 19)]), (15, [(3, 9), (1, 14),
    (2, 18), (2, 3), (1, 19), (0, 18), (2, 19), (0, 14), (2, 12), (1, 18), (2, 14), (3, 7), (3, 18), (3, 16), (2, 17), (3, 8), (3, 6), (3, 19), (3,
    15), (2, 10), (0, 19), (3, 14)]), (16, [(0, 7), (2, 5), (2, 4), (0, 18), (0, 16), (0, 6), (1, 9), (2, 16), (1, 8), (1, 19), (1, 16), (3, 16), (2,
    17)]), (17, [(2, 17), (3, 5), (0, 18), (3, 4), (1, 17), (1, 10), (3, 16), (1, 11), (1, 19), (3, 17), (0, 12), (0, 13), (0, 17)]), (18, [(3, 18),
    (2, 13), (1, 15), (3, 6), (3, 7), (1, 14), (1, 18), (3, 16), (0, 18), (1, 19), (2, 18), (2, 12), (2, 17)]), (19, [(3, 19), (3, 8), (2, 11), (0,
    18), (0, 15), (2, 10), (3, 16), (0, 19), (2, 19), (1, 19), (0, 14), (3, 9), (2, 17)])]
  patternCase
    | 0 =>
      [(0, [(7, 17), (5, 5), (4, 17)]), (1, [(5, 5), (6, 17), (5, 16)]), (2, [(7, 17), (5, 4), (5, 16)]), (3, [(5, 4), (4, 17), (6, 17)]), (4, [(5,
      5), (7, 17), (4, 17)]), (5, [(5, 5), (5, 16), (4, 19)]), (6, [(5, 16), (5, 5), (4, 19)]), (7, [(7, 10), (5, 16), (7, 17)]), (8, [(7, 10), (5,
      17), (5, 16)]), (9, [(5, 17), (5, 5), (4, 17)]), (10, [(4, 17), (7, 17), (5, 5)]), (11, [(7, 10), (4, 17), (4, 19)]), (12, [(6, 17), (5, 5), (5,
      16)]), (13, [(7, 10), (6, 17), (4, 17)]), (14, [(4, 10), (7, 17), (5, 16)]), (15, [(4, 10), (4, 17), (4, 19)]), (16, [(5, 5), (5, 16), (5, 17),
      (6, 10), (4, 16), (6, 17), (7, 19)]), (17, [(5, 5), (7, 17), (4, 17), (6, 17), (6, 10), (5, 19), (5, 16)]), (18, [(5, 4), (7, 17), (6, 17), (5,
      16), (5, 5), (7, 18), (7, 19)]), (19, [(5, 4), (4, 17), (5, 17), (5, 5), (5, 16), (6, 17), (6, 18)])]
    | 1 =>
      [(0, [(4, 13), (6, 19), (5, 18)]), (1, [(6, 16), (6, 9), (6, 19)]), (2, [(5, 19), (6, 16), (4, 13)]), (3, [(6, 9), (4, 17), (5, 18)]), (4, [(6,
      8), (6, 19), (5, 18)]), (5, [(4, 12), (4, 18), (6, 19)]), (6, [(4, 12), (7, 17), (4, 18)]), (7, [(6, 8), (5, 19), (4, 18)]), (8, [(4, 13), (4,
      18), (5, 19)]), (9, [(6, 19), (4, 13), (5, 18)]), (10, [(7, 17), (6, 8), (7, 16)]), (11, [(4, 12), (5, 19), (7, 16)]), (12, [(6, 9), (7, 17),
      (4, 18)]), (13, [(6, 9), (5, 19), (5, 18)]), (14, [(4, 18), (6, 8), (4, 17)]), (15, [(4, 12), (4, 17), (5, 18)]), (16, [(5, 14), (5, 19), (6,
      19), (4, 18), (5, 15), (5, 16), (7, 16)]), (17, [(7, 5), (6, 16), (5, 19), (7, 4), (6, 19), (7, 16), (4, 19)]), (18, [(7, 5), (4, 17), (7, 4),
      (7, 18), (4, 18), (6, 19), (7, 16)]), (19, [(5, 14), (6, 17), (6, 16), (4, 17), (7, 16), (5, 15), (6, 19)])]
    | _ =>
      [(0, [(4, 14), (4, 18), (6, 16)]), (1, [(6, 19), (6, 16), (5, 10)]), (2, [(4, 18), (7, 17), (5, 10)]), (3, [(6, 19), (4, 14), (7, 17)]), (4,
      [(5, 17), (7, 12), (4, 18)]), (5, [(5, 17), (7, 18), (4, 15)]), (6, [(7, 18), (5, 10), (6, 16)]), (7, [(5, 10), (4, 18), (7, 17)]), (8, [(4,
      15), (5, 19), (7, 17)]), (9, [(7, 12), (5, 19), (6, 16)]), (10, [(6, 8), (4, 18), (6, 16)]), (11, [(7, 18), (6, 8), (7, 17)]), (12, [(4, 15),
      (6, 16), (7, 18)]), (13, [(7, 12), (7, 17), (7, 18)]), (14, [(4, 15), (7, 17), (4, 18)]), (15, [(7, 18), (7, 12), (7, 17)]), (16, [(7, 18), (6,
      16), (4, 14), (5, 10), (5, 19), (7, 16), (7, 17)]), (17, [(6, 16), (4, 15), (4, 18), (5, 11), (7, 17), (7, 18), (4, 17)]), (18, [(4, 14), (5,
      18), (7, 17), (5, 10), (4, 18), (6, 16), (7, 18)]), (19, [(7, 18), (6, 17), (4, 15), (7, 17), (5, 19), (6, 16), (5, 11)])]
  data :=
    [(0, [(2, 0, -625), (3, 5, 625), (2, 17, 625), (2, 19, 625), (3, 17, 625), (4, 0, -625), (0, 3, -625), (1, 19, 625), (0, 15, -625), (0, 10, 3125),
    (1, 11, 625), (0, 12, -625), (0, 4, 3125), (0, 9, 3125), (1, 8, 625), (0, 14, -625), (3, 16, 625), (1, 16, 625), (3, 11, 625), (3, 19, 625), (0,
    6, -625), (2, 16, 625), (2, 11, 625), (0, 18, -625), (0, 7, -625), (0, 13, -625), (1, 17, 625), (2, 5, 625), (0, 0, 10000), (3, 8, 625), (1, 5,
    625), (2, 8, 625)]), (1, [(2, 4, 625), (2, 17, 625), (3, 17, 625), (1, 8, -625), (4, 0, -625), (1, 15, -625), (1, 10, -625), (3, 4, 625), (0, 18,
    625), (0, 7, 625), (1, 3, -625), (1, 6, 3125), (3, 18, 625), (1, 14, -625), (0, 13, 625), (1, 2, -625), (2, 13, 625), (3, 16, 625), (1, 1, 10000),
    (3, 7, 625), (0, 4, 625), (3, 13, 625), (0, 16, 625), (0, 17, 625), (1, 12, 3125), (2, 16, 625), (1, 5, 3125), (1, 19, -625), (2, 7, 625), (1, 9,
    -625), (2, 18, 625), (1, 11, -625)]), (2, [(2, 0, -625), (0, 19, 625), (0, 6, 625), (2, 13, -625), (1, 19, 625), (2, 12, -625), (2, 3, -625), (2,
    2, 10000), (1, 9, 625), (2, 5, -625), (0, 18, 625), (2, 11, -625), (3, 18, 625), (1, 2, -625), (2, 4, -625), (1, 15, 625), (1, 18, 625), (3, 6,
    625), (3, 16, 625), (1, 16, 625), (0, 9, 625), (2, 17, -625), (1, 6, 625), (3, 19, 625), (2, 10, -625), (2, 8, 3125), (0, 16, 625), (2, 7, 3125),
    (0, 15, 625), (3, 15, 625), (2, 14, 3125), (3, 9, 625)]), (3, [(2, 14, 625), (0, 19, 625), (2, 19, 625), (2, 17, 625), (3, 16, -625), (3, 6,
    -625), (0, 3, -625), (3, 7, -625), (1, 19, 625), (2, 3, -625), (2, 10, 625), (3, 3, 10000), (0, 18, 625), (1, 3, -625), (3, 13, 3125), (0, 10,
    625), (3, 15, 3125), (1, 18, 625), (3, 8, -625), (3, 9, -625), (3, 11, 3125), (2, 12, 625), (1, 10, 625), (3, 5, -625), (0, 17, 625), (1, 14,
    625), (1, 12, 625), (1, 17, 625), (0, 12, 625), (3, 4, -625), (0, 14, 625), (2, 18, 625)]), (4, [(0, 5, 10000), (2, 5, -1250), (1, 8, -1875), (1,
    0, 5625), (0, 18, 1875), (1, 5, -3125), (3, 5, -1250), (3, 16, -625), (2, 16, -625), (0, 13, 1875), (0, 7, 1875), (3, 17, -625), (0, 12, 3750),
    (1, 16, -2500), (0, 6, 3750), (0, 4, 9375), (0, 16, 5000), (1, 19, -1875), (0, 17, 5000), (1, 11, -1875), (2, 17, -625), (1, 17, -2500)]), (5,
    [(0, 4, -3125), (1, 9, 3750), (1, 17, 5000), (0, 13, -1875), (1, 5, 9375), (2, 4, -1250), (1, 0, 5625), (1, 19, 1875), (3, 16, -625), (2, 16,
    -625), (1, 11, 1875), (1, 10, 3750), (3, 4, -1250), (1, 8, 1875), (1, 16, 5000), (1, 4, 10000), (0, 16, -2500), (0, 17, -2500), (3, 17, -625), (0,
    18, -1875), (2, 17, -625), (0, 7, -1875)]), (6, [(2, 18, -2500), (1, 2, 5625), (0, 18, -625), (3, 18, -625), (2, 13, -1875), (2, 7, -3125), (1,
    19, 1875), (1, 8, 3750), (3, 16, -625), (1, 9, 1875), (0, 16, -625), (0, 7, -1250), (1, 18, 5000), (2, 17, -1875), (1, 14, 3750), (1, 15, 1875),
    (1, 16, 5000), (2, 16, -2500), (1, 6, 9375), (3, 7, -1250), (2, 4, -1875), (1, 7, 10000)]), (7, [(1, 2, 5625), (0, 18, -625), (3, 18, -625), (2,
    7, 9375), (2, 4, 1875), (2, 18, 5000), (2, 17, 1875), (1, 15, -1875), (2, 6, 10000), (0, 6, -1250), (2, 12, 3750), (3, 16, -625), (2, 13, 1875),
    (2, 5, 3750), (0, 16, -625), (1, 18, -2500), (1, 16, -2500), (3, 6, -1250), (2, 16, 5000), (1, 6, -3125), (1, 9, -1875), (1, 19, -1875)]), (8,
    [(2, 8, 9375), (1, 19, -625), (2, 19, 5000), (0, 19, -2500), (2, 17, 1875), (3, 9, -1250), (2, 9, 10000), (3, 16, -625), (1, 16, -625), (3, 19,
    -625), (1, 9, -1250), (0, 15, -1875), (0, 6, -1875), (2, 0, 5625), (0, 16, -2500), (2, 16, 5000), (2, 11, 1875), (0, 9, -3125), (2, 5, 1875), (2,
    4, 3750), (0, 18, -1875), (2, 10, 3750)]), (9, [(0, 7, 3750), (1, 19, -625), (0, 19, 5000), (2, 19, -2500), (2, 8, -3125), (3, 8, -1250), (0, 6,
    1875), (0, 8, 10000), (0, 18, 1875), (3, 16, -625), (1, 16, -625), (2, 5, -1875), (2, 11, -1875), (3, 19, -625), (0, 14, 3750), (2, 17, -1875),
    (2, 16, -2500), (1, 8, -1250), (0, 9, 9375), (0, 16, 5000), (2, 0, 5625), (0, 15, 1875)]), (10, [(2, 11, -1250), (3, 11, -3125), (0, 12, 1875),
    (3, 0, 5625), (0, 14, 1875), (1, 19, -625), (0, 19, 5000), (3, 17, -2500), (0, 13, 3750), (3, 16, -1875), (0, 18, 1875), (0, 10, 9375), (3, 8,
    -1875), (1, 11, -1250), (0, 15, 3750), (0, 11, 10000), (3, 19, -2500), (1, 17, -625), (3, 5, -1875), (2, 19, -625), (0, 17, 5000), (2, 17,
    -625)]), (11, [(3, 4, 3750), (3, 0, 5625), (1, 19, -625), (0, 19, -2500), (3, 17, 5000), (3, 5, 1875), (0, 12, -1875), (2, 10, -1250), (3, 10,
    10000), (3, 16, 1875), (0, 14, -1875), (0, 10, -3125), (3, 19, 5000), (1, 17, -625), (3, 9, 3750), (0, 17, -2500), (1, 10, -1250), (3, 8, 1875),
    (3, 11, 9375), (2, 19, -625), (0, 18, -1875), (2, 17, -625)]), (12, [(3, 13, -3125), (3, 4, -1875), (1, 11, 3750), (1, 12, 9375), (0, 18, -625),
    (1, 17, 5000), (3, 17, -2500), (1, 3, 5625), (3, 16, -1875), (3, 7, -1875), (1, 13, 10000), (1, 19, 1875), (3, 18, -2500), (1, 15, 3750), (0, 17,
    -625), (1, 18, 5000), (0, 13, -1250), (2, 13, -1250), (1, 10, 1875), (2, 18, -625), (1, 14, 1875), (2, 17, -625)]), (13, [(0, 18, -625), (0, 12,
    -1250), (3, 17, 5000), (1, 12, -3125), (1, 3, 5625), (3, 6, 3750), (3, 12, 10000), (1, 10, -1875), (3, 4, 1875), (3, 18, 5000), (1, 14, -1875),
    (0, 17, -625), (3, 16, 1875), (1, 18, -2500), (3, 7, 1875), (3, 13, 9375), (2, 18, -625), (2, 12, -1250), (3, 5, 3750), (1, 19, -1875), (2, 17,
    -625), (1, 17, -2500)]), (14, [(0, 15, -1250), (2, 3, 5625), (1, 19, -625), (3, 15, -3125), (0, 18, -625), (2, 19, 5000), (3, 6, -1875), (2, 17,
    1875), (2, 18, 5000), (2, 13, 3750), (2, 10, 1875), (3, 16, -1875), (2, 14, 9375), (2, 15, 10000), (3, 18, -2500), (1, 18, -625), (2, 11, 3750),
    (3, 9, -1875), (2, 12, 1875), (1, 15, -1250), (3, 19, -2500), (0, 19, -625)]), (15, [(3, 9, 1875), (1, 14, -1250), (2, 18, -2500), (2, 3, 5625),
    (1, 19, -625), (0, 18, -625), (2, 19, -2500), (0, 14, -1250), (2, 12, -1875), (1, 18, -625), (2, 14, -3125), (3, 7, 3750), (3, 18, 5000), (3, 16,
    1875), (2, 17, -1875), (3, 8, 3750), (3, 6, 1875), (3, 19, 5000), (3, 15, 9375), (2, 10, -1875), (0, 19, -625), (3, 14, 10000)]), (16, [(0, 7,
    7500), (2, 5, 7500), (2, 4, 7500), (0, 18, 3750), (0, 16, 5000), (0, 6, 7500), (1, 9, 7500), (2, 16, 5000), (1, 8, 7500), (1, 19, 3750), (1, 16,
    5000), (3, 16, 1250), (2, 17, 3750)]), (17, [(2, 17, 1250), (3, 5, 7500), (0, 18, 3750), (3, 4, 7500), (1, 17, 5000), (1, 10, 7500), (3, 16,
    3750), (1, 11, 7500), (1, 19, 3750), (3, 17, 5000), (0, 12, 7500), (0, 13, 7500), (0, 17, 5000)]), (18, [(3, 18, 5000), (2, 13, 7500), (1, 15,
    7500), (3, 6, 7500), (3, 7, 7500), (1, 14, 7500), (1, 18, 5000), (3, 16, 3750), (0, 18, 1250), (1, 19, 3750), (2, 18, 5000), (2, 12, 7500), (2,
    17, 3750)]), (19, [(3, 19, 5000), (3, 8, 7500), (2, 11, 7500), (0, 18, 3750), (0, 15, 7500), (2, 10, 7500), (3, 16, 3750), (0, 19, 5000), (2, 19,
    5000), (1, 19, 1250), (0, 14, 7500), (3, 9, 7500), (2, 17, 3750)])]
  dataCase
    | 0 =>
      [(0, [(7, 17, 625), (5, 5, 625), (4, 17, 625)]), (1, [(5, 5, 625), (6, 17, 625), (5, 16, 625)]), (2, [(7, 17, 625), (5, 4, 625), (5, 16, 625)]),
      (3, [(5, 4, 625), (4, 17, 625), (6, 17, 625)]), (4, [(5, 5, -625), (7, 17, -1250), (4, 17, -1250)]), (5, [(5, 5, -625), (5, 16, -1250), (4, 19,
      -1250)]), (6, [(5, 16, -625), (5, 5, -1250), (4, 19, -1250)]), (7, [(7, 10, -1250), (5, 16, -625), (7, 17, -1250)]), (8, [(7, 10, -1250), (5,
      17, -625), (5, 16, -1250)]), (9, [(5, 17, -625), (5, 5, -1250), (4, 17, -1250)]), (10, [(4, 17, -625), (7, 17, -1250), (5, 5, -1250)]), (11,
      [(7, 10, -1250), (4, 17, -625), (4, 19, -1250)]), (12, [(6, 17, -625), (5, 5, -1250), (5, 16, -1250)]), (13, [(7, 10, -1250), (6, 17, -625), (4,
      17, -1250)]), (14, [(4, 10, -625), (7, 17, -1250), (5, 16, -1250)]), (15, [(4, 10, -625), (4, 17, -1250), (4, 19, -1250)]), (16, [(5, 5, 2500),
      (5, 16, 2500), (5, 17, 2500), (6, 10, 5000), (4, 16, 10000), (6, 17, 5000), (7, 19, 5000)]), (17, [(5, 5, 2500), (7, 17, 5000), (4, 17, 2500),
      (6, 17, 2500), (6, 10, 5000), (5, 19, 10000), (5, 16, 5000)]), (18, [(5, 4, 2500), (7, 17, 5000), (6, 17, 2500), (5, 16, 2500), (5, 5, 5000),
      (7, 18, 10000), (7, 19, 5000)]), (19, [(5, 4, 2500), (4, 17, 2500), (5, 17, 2500), (5, 5, 5000), (5, 16, 5000), (6, 17, 5000), (6, 18, 10000)])]
    | 1 =>
      [(0, [(4, 13, 625), (6, 19, 625), (5, 18, 625)]), (1, [(6, 16, 625), (6, 9, 625), (6, 19, 625)]), (2, [(5, 19, 625), (6, 16, 625), (4, 13,
      625)]), (3, [(6, 9, 625), (4, 17, 625), (5, 18, 625)]), (4, [(6, 8, -1250), (6, 19, -625), (5, 18, -1250)]), (5, [(4, 12, -1250), (4, 18,
      -1250), (6, 19, -625)]), (6, [(4, 12, -1250), (7, 17, -1250), (4, 18, -625)]), (7, [(6, 8, -1250), (5, 19, -1250), (4, 18, -625)]), (8, [(4, 13,
      -625), (4, 18, -1250), (5, 19, -1250)]), (9, [(6, 19, -1250), (4, 13, -625), (5, 18, -1250)]), (10, [(7, 17, -1250), (6, 8, -1250), (7, 16,
      -625)]), (11, [(4, 12, -1250), (5, 19, -1250), (7, 16, -625)]), (12, [(6, 9, -625), (7, 17, -1250), (4, 18, -1250)]), (13, [(6, 9, -625), (5,
      19, -1250), (5, 18, -1250)]), (14, [(4, 18, -1250), (6, 8, -1250), (4, 17, -625)]), (15, [(4, 12, -1250), (4, 17, -625), (5, 18, -1250)]), (16,
      [(5, 14, 5000), (5, 19, 5000), (6, 19, 2500), (4, 18, 2500), (5, 15, 2500), (5, 16, 10000), (7, 16, 5000)]), (17, [(7, 5, 5000), (6, 16, 5000),
      (5, 19, 5000), (7, 4, 2500), (6, 19, 2500), (7, 16, 2500), (4, 19, 10000)]), (18, [(7, 5, 5000), (4, 17, 2500), (7, 4, 2500), (7, 18, 10000),
      (4, 18, 2500), (6, 19, 5000), (7, 16, 5000)]), (19, [(5, 14, 5000), (6, 17, 10000), (6, 16, 5000), (4, 17, 2500), (7, 16, 2500), (5, 15, 2500),
      (6, 19, 5000)])]
    | _ =>
      [(0, [(4, 14, 625), (4, 18, 625), (6, 16, 625)]), (1, [(6, 19, 625), (6, 16, 625), (5, 10, 625)]), (2, [(4, 18, 625), (7, 17, 625), (5, 10,
      625)]), (3, [(6, 19, 625), (4, 14, 625), (7, 17, 625)]), (4, [(5, 17, -625), (7, 12, -1250), (4, 18, -1250)]), (5, [(5, 17, -625), (7, 18,
      -1250), (4, 15, -1250)]), (6, [(7, 18, -1250), (5, 10, -625), (6, 16, -1250)]), (7, [(5, 10, -625), (4, 18, -1250), (7, 17, -1250)]), (8, [(4,
      15, -1250), (5, 19, -625), (7, 17, -1250)]), (9, [(7, 12, -1250), (5, 19, -625), (6, 16, -1250)]), (10, [(6, 8, -625), (4, 18, -1250), (6, 16,
      -1250)]), (11, [(7, 18, -1250), (6, 8, -625), (7, 17, -1250)]), (12, [(4, 15, -1250), (6, 16, -1250), (7, 18, -625)]), (13, [(7, 12, -1250), (7,
      17, -1250), (7, 18, -625)]), (14, [(4, 15, -1250), (7, 17, -625), (4, 18, -1250)]), (15, [(7, 18, -1250), (7, 12, -1250), (7, 17, -625)]), (16,
      [(7, 18, 5000), (6, 16, 2500), (4, 14, 5000), (5, 10, 2500), (5, 19, 2500), (7, 16, 10000), (7, 17, 5000)]), (17, [(6, 16, 2500), (4, 15, 5000),
      (4, 18, 5000), (5, 11, 2500), (7, 17, 5000), (7, 18, 2500), (4, 17, 10000)]), (18, [(4, 14, 5000), (5, 18, 10000), (7, 17, 2500), (5, 10, 2500),
      (4, 18, 5000), (6, 16, 5000), (7, 18, 2500)]), (19, [(7, 18, 5000), (6, 17, 10000), (4, 15, 5000), (7, 17, 2500), (5, 19, 2500), (6, 16, 5000),
      (5, 11, 2500)])]

/-- `buildRestrictionProlongation`, restrictionProlongation.pyx 17-85: the function for the orders of the elements and the dimension. -/
def select : Nat → Nat → Nat → Option Table
  | 0, 0, 1 => some t1p0
  | 0, 0, 2 => some t2p0
  | 0, 0, 3 => some t3p0
  | 1, 1, 1 => some t1p1
  | 1, 1, 2 => some t2p1
  | 1, 1, 3 => some t3p1
  | 1, 2, 1 => some t1p1p2
  | 1, 2, 2 => some t2p1p2
  | 1, 2, 3 => some t3p1p2
  | 1, 3, 1 => some t1p1p3
  | 1, 3, 2 => some t2p1p3
  | 1, 3, 3 => some t3p1p3
  | 2, 2, 1 => some t1p2
  | 2, 2, 2 => some t2p2
  | 2, 2, 3 => some t3p2
  | 2, 3, 1 => some t1p2p3
  | 2, 3, 2 => some t2p2p3
  | 2, 3, 3 => some t3p2p3
  | 3, 3, 1 => some t1p3
  | 3, 3, 2 => some t2p3
  | 3, 3, 3 => some t3p3
  | _, _, _ => none

end PyNucleus.Restriction
