import Mathlib.Algebra.Field.Rat
import Mathlib.Data.Rat.Cast.Defs

/-!
# Model of the local mass and stiffness matrices

/repo/fem/PyNucleus_fem/mass_{1,2,3}D_P{0,1,2,3}.pxi, mass_{1,2,3}D_P0_P1.pxi, stiffness_{1,2,3}D_P{1,2,3}.pxi (generated there by a symbolic
program).  Each `eval` sets `vol` to a decimal constant, multiplies it with (mass) or divides it by (stiffness) the volume of the simplex, and
writes one entry for each pair of local dofs `I ≤ J`, row by row.  A table is the constant and the (integer) factors of `vol`; for stiffness matrices in
two and three dimensions the factor is a linear combination of the inner products `l00, l01, …, l11, …` and is given by its terms, pairs of a coefficient and the position of the inner product.
-/

namespace PyNucleus.LocalMatrices

/-- Constant and factors of a mass matrix. -/
structure Table (α : Type) where
  const : ℚ
  factors : List α

/-- mass_1D_P0.pxi 13-17. -/
def mass_0_1 : Table Int := ⟨1.0, [1]⟩

/-- mass_2D_P0.pxi 13-17. -/
def mass_0_2 : Table Int := ⟨1.0, [1]⟩

/-- mass_3D_P0.pxi 13-17. -/
def mass_0_3 : Table Int := ⟨1.0, [1]⟩

/-- mass_1D_P1.pxi 13-19. -/
def mass_1_1 : Table Int := ⟨0.166666666666667, [2, 1, 2]⟩

/-- mass_2D_P1.pxi 13-22. -/
def mass_1_2 : Table Int := ⟨0.0833333333333333, [2, 1, 1, 2, 1, 2]⟩

/-- mass_3D_P1.pxi 13-26. -/
def mass_1_3 : Table Int := ⟨0.05, [2, 1, 1, 1, 2, 1, 1, 2, 1, 2]⟩

/-- mass_1D_P2.pxi 13-22. -/
def mass_2_1 : Table Int := ⟨0.0333333333333333, [4, -1, 2, 4, 2, 16]⟩

/-- mass_2D_P2.pxi 13-37. -/
def mass_2_2 : Table Int := ⟨0.00555555555555556, [6, -1, -1, 0, -4, 0, 6, -1, 0, 0, -4, 6, -4, 0, 0, 32, 16, 16, 32, 16, 32]⟩

/-- mass_3D_P2.pxi 13-71. -/
def mass_2_3 : Table Int := ⟨0.00238095238095238, [6, 1, 1, 1, -4, -6, -4, -4, -6, -6, 6, 1, 1, -4, -4, -6, -6, -4, -6, 6, 1, -6, -4, -4, -6, -6, -4, 6, -6, -6, -6, -4, -4, -4, 32, 16, 16, 16, 16, 8,
    32, 16, 8, 16, 16, 32, 16, 8, 16, 32, 16, 16, 32, 16, 32]⟩

/-- mass_1D_P3.pxi 13-26. -/
def mass_3_1 : Table Int := ⟨0.000595238095238095, [128, 19, 99, -36, 128, -36, 99, 648, -81, 648]⟩

/-- mass_2D_P3.pxi 13-71. -/
def mass_3_2 : Table Int := ⟨0.000148809523809524, [76, 11, 11, 18, 0, 27, 27, 0, 18, 36, 76, 11, 0, 18, 18, 0, 27, 27, 36, 76, 27, 27, 0, 18, 18, 0, 36, 540, -189, -135, -54, -135, 270, 162, 540, 270,
    -135, -54, -135, 162, 540, -189, -135, -54, 162, 540, 270, -135, 162, 540, -189, 162, 540, 162, 1944]⟩

/-- mass_3D_P3.pxi 13-226. -/
def mass_3_3 : Table Int := ⟨0.000223214285714286, [16, 2, 2, 2, -12, 6, 3, 3, 6, -12, -12, 6, 3, 3, 3, 3, 18, 18, 36, 18, 16, 2, 2, 6, -12, -12, 6, 3, 3, 3, 3, -12, 6, 3, 3, 18, 18, 18, 36, 16, 2, 3,
    3, 6, -12, -12, 6, 3, 3, 3, 3, -12, 6, 18, 36, 18, 18, 16, 3, 3, 3, 3, 3, 3, 6, -12, 6, -12, 6, -12, 36, 18, 18, 18, 108, -54, -27, 0, -27, 54,
    54, -27, -27, 0, 0, 0, 0, 0, -54, 0, 108, 54, -27, 0, -27, -27, 0, 54, -27, 0, 0, 0, 0, 0, -54, 108, -54, -27, 0, 0, 0, 54, -27, -27, 0, 0, 0, 0,
    -54, 108, 54, -27, 0, 0, -27, 0, 54, -27, 0, -54, 0, 0, 108, -54, -27, 0, 0, 0, 54, -27, 0, -54, 0, 0, 108, 54, -27, 0, 0, -27, 0, 0, 0, -54, 0,
    108, -54, 0, -27, 0, -27, 0, 0, -54, 0, 108, -27, 54, -27, 54, -54, 0, 0, 0, 108, -54, 0, -27, 0, 0, 0, -54, 108, -27, 54, -54, 0, 0, 0, 108,
    -54, 0, -54, 0, 0, 108, -54, 0, 0, 0, 432, 216, 216, 216, 432, 216, 216, 432, 216, 432]⟩

/-- mass_1D_P0_P1.pxi 13-18. -/
def mass_01_1 : Table Int := ⟨0.5, [1, 1]⟩

/-- mass_2D_P0_P1.pxi 13-19. -/
def mass_01_2 : Table Int := ⟨0.333333333333333, [1, 1, 1]⟩

/-- mass_3D_P0_P1.pxi 13-20. -/
def mass_01_3 : Table Int := ⟨0.25, [1, 1, 1, 1]⟩

/-- stiffness_1D_P1.pxi 13-19. -/
def stiffness_1_1 : Table Int := ⟨1.0, [1, -1, 1]⟩

/-- stiffness_1D_P2.pxi 13-22. -/
def stiffness_2_1 : Table Int := ⟨0.333333333333333, [7, 1, -8, 7, -8, 16]⟩

/-- stiffness_1D_P3.pxi 13-26. -/
def stiffness_3_1 : Table Int := ⟨0.025, [148, -13, -189, 54, 148, 54, -189, 432, -297, 432]⟩

set_option maxHeartbeats 2000000 in
/-- stiffness_2D_P1.pxi 13-29. -/
def stiffness_1_2 : Table (List (Int × Nat)) := ⟨0.25, [[(1, 0)], [(1, 1)], [(1, 2)], [(1, 3)], [(1, 4)], [(1, 5)]]⟩

set_option maxHeartbeats 2000000 in
/-- stiffness_3D_P1.pxi 13-37. -/
def stiffness_1_3 : Table (List (Int × Nat)) := ⟨0.0277777777777778, [[(1, 0)], [(1, 1)], [(1, 2)], [(1, 3)], [(1, 4)], [(1, 5)], [(1, 6)], [(1, 7)], [(1, 8)], [(1, 9)]]⟩

set_option maxHeartbeats 2000000 in
/-- stiffness_2D_P2.pxi 13-44. -/
def stiffness_2_2 : Table (List (Int × Nat)) := ⟨0.0833333333333333, [[(3, 0)], [(-1, 1)], [(-1, 2)], [(4, 1)], [], [(4, 2)], [(3, 3)], [(-1, 4)], [(4, 1)], [(4, 4)], [], [(3, 5)], [], [(4, 4)], [(4, 2)],
    [(8, 0), (8, 1), (8, 3)], [(4, 1), (8, 2), (4, 3), (4, 4)], [(4, 0), (4, 1), (4, 2), (8, 4)], [(8, 3), (8, 4), (8, 5)],
    [(8, 1), (4, 2), (4, 4), (4, 5)], [(8, 0), (8, 2), (8, 5)]]⟩

set_option maxHeartbeats 2000000 in
/-- stiffness_3D_P2.pxi 13-82. -/
def stiffness_2_3 : Table (List (Int × Nat)) := ⟨0.00555555555555556, [[(3, 0)], [(-1, 1)], [(-1, 2)], [(-1, 3)], [(-1, 0), (3, 1)], [(-1, 1), (-1, 2)], [(-1, 0), (3, 2)], [(-1, 0), (3, 3)], [(-1, 1), (-1, 3)],
    [(-1, 2), (-1, 3)], [(3, 4)], [(-1, 5)], [(-1, 6)], [(3, 1), (-1, 4)], [(-1, 4), (3, 5)], [(-1, 1), (-1, 5)], [(-1, 1), (-1, 6)],
    [(-1, 4), (3, 6)], [(-1, 5), (-1, 6)], [(3, 7)], [(-1, 8)], [(-1, 2), (-1, 5)], [(3, 5), (-1, 7)], [(3, 2), (-1, 7)], [(-1, 2), (-1, 8)],
    [(-1, 5), (-1, 8)], [(-1, 7), (3, 8)], [(3, 9)], [(-1, 3), (-1, 6)], [(-1, 6), (-1, 8)], [(-1, 3), (-1, 8)], [(3, 3), (-1, 9)],
    [(3, 6), (-1, 9)], [(3, 8), (-1, 9)], [(8, 0), (8, 1), (8, 4)], [(4, 1), (8, 2), (4, 4), (4, 5)], [(4, 0), (4, 1), (4, 2), (8, 5)],
    [(4, 0), (4, 1), (4, 3), (8, 6)], [(4, 1), (8, 3), (4, 4), (4, 6)], [(4, 2), (4, 3), (4, 5), (4, 6)], [(8, 4), (8, 5), (8, 7)],
    [(8, 1), (4, 2), (4, 5), (4, 7)], [(4, 1), (4, 2), (4, 6), (4, 8)], [(4, 4), (4, 5), (4, 6), (8, 8)], [(4, 5), (8, 6), (4, 7), (4, 8)],
    [(8, 0), (8, 2), (8, 7)], [(4, 0), (4, 2), (4, 3), (8, 8)], [(4, 1), (4, 3), (4, 5), (4, 8)], [(4, 2), (8, 3), (4, 7), (4, 8)],
    [(8, 0), (8, 3), (8, 9)], [(8, 1), (4, 3), (4, 6), (4, 9)], [(8, 2), (4, 3), (4, 8), (4, 9)], [(8, 4), (8, 6), (8, 9)],
    [(8, 5), (4, 6), (4, 8), (4, 9)], [(8, 7), (8, 8), (8, 9)]]⟩

set_option maxHeartbeats 2000000 in
/-- stiffness_2D_P3.pxi 13-78. -/
def stiffness_3_2 : Table (List (Int × Nat)) := ⟨0.003125, [[(68, 0)], [(14, 1)], [(14, 2)], [(6, 0), (114, 1)], [(6, 0), (-48, 1)], [(6, 1), (6, 2)], [(6, 1), (6, 2)], [(6, 0), (-48, 2)], [(6, 0), (114, 2)],
    [(18, 0), (18, 1), (18, 2)], [(68, 3)], [(14, 4)], [(-48, 1), (6, 3)], [(114, 1), (6, 3)], [(6, 3), (114, 4)], [(6, 3), (-48, 4)],
    [(6, 1), (6, 4)], [(6, 1), (6, 4)], [(18, 1), (18, 3), (18, 4)], [(68, 5)], [(6, 2), (6, 4)], [(6, 2), (6, 4)], [(-48, 4), (6, 5)],
    [(114, 4), (6, 5)], [(114, 2), (6, 5)], [(-48, 2), (6, 5)], [(18, 2), (18, 4), (18, 5)], [(270, 0), (270, 1), (270, 3)],
    [(-54, 0), (108, 1), (-54, 3)], [(-27, 1), (-54, 2), (-27, 3), (-27, 4)], [(-27, 1), (-54, 2), (-27, 3), (-27, 4)],
    [(-27, 0), (-27, 1), (-27, 2), (-54, 4)], [(135, 0), (135, 1), (135, 2), (270, 4)], [(162, 1), (324, 2), (162, 3), (162, 4)],
    [(270, 0), (270, 1), (270, 3)], [(135, 1), (270, 2), (135, 3), (135, 4)], [(-27, 1), (-54, 2), (-27, 3), (-27, 4)],
    [(-27, 0), (-27, 1), (-27, 2), (-54, 4)], [(-27, 0), (-27, 1), (-27, 2), (-54, 4)], [(162, 0), (162, 1), (162, 2), (324, 4)],
    [(270, 3), (270, 4), (270, 5)], [(-54, 3), (108, 4), (-54, 5)], [(-54, 1), (-27, 2), (-27, 4), (-27, 5)],
    [(-54, 1), (-27, 2), (-27, 4), (-27, 5)], [(324, 1), (162, 2), (162, 4), (162, 5)], [(270, 3), (270, 4), (270, 5)],
    [(270, 1), (135, 2), (135, 4), (135, 5)], [(-54, 1), (-27, 2), (-27, 4), (-27, 5)], [(162, 1), (324, 2), (162, 3), (162, 4)],
    [(270, 0), (270, 2), (270, 5)], [(-54, 0), (108, 2), (-54, 5)], [(162, 0), (162, 1), (162, 2), (324, 4)], [(270, 0), (270, 2), (270, 5)],
    [(324, 1), (162, 2), (162, 4), (162, 5)], [(648, 0), (648, 1), (648, 2), (648, 3), (648, 4), (648, 5)]]⟩

set_option maxHeartbeats 2000000 in
/-- stiffness_3D_P3.pxi 13-237. -/
def stiffness_3_3 : Table (List (Int × Nat)) := ⟨0.0000496031746031746, [[(200, 0)], [(38, 1)], [(38, 2)], [(38, 3)], [(-117, 0), (207, 1)], [(45, 0), (-117, 1)], [(45, 1), (45, 2)], [(45, 1), (45, 2)],
    [(45, 0), (-117, 2)], [(-117, 0), (207, 2)], [(-117, 0), (207, 3)], [(45, 0), (-117, 3)], [(45, 1), (45, 3)], [(45, 1), (45, 3)],
    [(45, 2), (45, 3)], [(45, 2), (45, 3)], [(108, 0), (-54, 1), (-54, 2)], [(108, 0), (-54, 1), (-54, 3)], [(108, 1), (108, 2), (108, 3)],
    [(108, 0), (-54, 2), (-54, 3)], [(200, 4)], [(38, 5)], [(38, 6)], [(-117, 1), (45, 4)], [(207, 1), (-117, 4)], [(-117, 4), (207, 5)],
    [(45, 4), (-117, 5)], [(45, 1), (45, 5)], [(45, 1), (45, 5)], [(45, 1), (45, 6)], [(45, 1), (45, 6)], [(-117, 4), (207, 6)],
    [(45, 4), (-117, 6)], [(45, 5), (45, 6)], [(45, 5), (45, 6)], [(-54, 1), (108, 4), (-54, 5)], [(-54, 1), (108, 4), (-54, 6)],
    [(108, 4), (-54, 5), (-54, 6)], [(108, 1), (108, 5), (108, 6)], [(200, 7)], [(38, 8)], [(45, 2), (45, 5)], [(45, 2), (45, 5)],
    [(-117, 5), (45, 7)], [(207, 5), (-117, 7)], [(207, 2), (-117, 7)], [(-117, 2), (45, 7)], [(45, 2), (45, 8)], [(45, 2), (45, 8)],
    [(45, 5), (45, 8)], [(45, 5), (45, 8)], [(-117, 7), (207, 8)], [(45, 7), (-117, 8)], [(-54, 2), (-54, 5), (108, 7)],
    [(108, 2), (108, 5), (108, 8)], [(-54, 5), (108, 7), (-54, 8)], [(-54, 2), (108, 7), (-54, 8)], [(200, 9)], [(45, 3), (45, 6)],
    [(45, 3), (45, 6)], [(45, 6), (45, 8)], [(45, 6), (45, 8)], [(45, 3), (45, 8)], [(45, 3), (45, 8)], [(-117, 3), (45, 9)], [(207, 3), (-117, 9)],
    [(-117, 6), (45, 9)], [(207, 6), (-117, 9)], [(-117, 8), (45, 9)], [(207, 8), (-117, 9)], [(108, 3), (108, 6), (108, 8)],
    [(-54, 3), (-54, 6), (108, 9)], [(-54, 6), (-54, 8), (108, 9)], [(-54, 3), (-54, 8), (108, 9)], [(810, 0), (648, 1), (648, 4)],
    [(-243, 0), (162, 1), (-243, 4)], [(-162, 1), (-243, 2), (-81, 4), (-81, 5)], [(-81, 1), (-162, 2), (-81, 4), (-81, 5)],
    [(-81, 0), (-81, 1), (-162, 2), (-243, 5)], [(405, 0), (324, 1), (324, 2), (648, 5)], [(405, 0), (324, 1), (324, 3), (648, 6)],
    [(-81, 0), (-81, 1), (-162, 3), (-243, 6)], [(-162, 1), (-243, 3), (-81, 4), (-81, 6)], [(-81, 1), (-162, 3), (-81, 4), (-81, 6)],
    [(-81, 2), (-81, 3), (-81, 5), (-81, 6)], [(-81, 2), (-81, 3), (-81, 5), (-81, 6)], [(-162, 0), (324, 1), (810, 2), (324, 4), (324, 5)],
    [(-162, 0), (324, 1), (810, 3), (324, 4), (324, 6)], [(-81, 1), (-162, 2), (-162, 3), (-81, 4), (-81, 5), (-81, 6)],
    [(-81, 0), (-81, 1), (405, 2), (405, 3), (324, 5), (324, 6)], [(648, 0), (648, 1), (810, 4)], [(324, 1), (648, 2), (405, 4), (324, 5)],
    [(-81, 1), (-243, 2), (-81, 4), (-162, 5)], [(-81, 0), (-81, 1), (-81, 2), (-162, 5)], [(-81, 0), (-162, 1), (-81, 2), (-243, 5)],
    [(-81, 0), (-162, 1), (-81, 3), (-243, 6)], [(-81, 0), (-81, 1), (-81, 3), (-162, 6)], [(324, 1), (648, 3), (405, 4), (324, 6)],
    [(-81, 1), (-243, 3), (-81, 4), (-162, 6)], [(-81, 2), (-81, 3), (-81, 5), (-81, 6)], [(-81, 2), (-81, 3), (-81, 5), (-81, 6)],
    [(324, 0), (324, 1), (324, 2), (-162, 4), (810, 5)], [(324, 0), (324, 1), (324, 3), (-162, 4), (810, 6)],
    [(-81, 1), (324, 2), (324, 3), (-81, 4), (405, 5), (405, 6)], [(-81, 0), (-81, 1), (-81, 2), (-81, 3), (-162, 5), (-162, 6)],
    [(810, 4), (648, 5), (648, 7)], [(-243, 4), (162, 5), (-243, 7)], [(-243, 1), (-81, 2), (-162, 5), (-81, 7)],
    [(-162, 1), (-81, 2), (-81, 5), (-81, 7)], [(-81, 1), (-81, 2), (-81, 6), (-81, 8)], [(-81, 1), (-81, 2), (-81, 6), (-81, 8)],
    [(405, 4), (324, 5), (324, 6), (648, 8)], [(-81, 4), (-81, 5), (-162, 6), (-243, 8)], [(-162, 5), (-243, 6), (-81, 7), (-81, 8)],
    [(-81, 5), (-162, 6), (-81, 7), (-81, 8)], [(810, 1), (324, 2), (-162, 4), (324, 5), (324, 7)],
    [(405, 1), (324, 2), (-81, 4), (-81, 5), (405, 6), (324, 8)], [(-162, 4), (324, 5), (810, 6), (324, 7), (324, 8)],
    [(-162, 1), (-81, 2), (-81, 5), (-162, 6), (-81, 7), (-81, 8)], [(648, 4), (648, 5), (810, 7)], [(648, 1), (324, 2), (324, 5), (405, 7)],
    [(-243, 1), (-162, 2), (-81, 5), (-81, 7)], [(-81, 1), (-81, 2), (-81, 6), (-81, 8)], [(-81, 1), (-81, 2), (-81, 6), (-81, 8)],
    [(-81, 4), (-162, 5), (-81, 6), (-243, 8)], [(-81, 4), (-81, 5), (-81, 6), (-162, 8)], [(324, 5), (648, 6), (405, 7), (324, 8)],
    [(-81, 5), (-243, 6), (-81, 7), (-162, 8)], [(324, 1), (810, 2), (324, 4), (324, 5), (-162, 7)],
    [(-81, 1), (-162, 2), (-81, 4), (-81, 5), (-81, 6), (-162, 8)], [(324, 4), (324, 5), (324, 6), (-162, 7), (810, 8)],
    [(324, 1), (405, 2), (-81, 5), (324, 6), (-81, 7), (405, 8)], [(648, 0), (648, 2), (810, 7)], [(-243, 0), (162, 2), (-243, 7)],
    [(-81, 0), (-162, 2), (-81, 3), (-243, 8)], [(-81, 0), (-81, 2), (-81, 3), (-162, 8)], [(-81, 1), (-81, 3), (-81, 5), (-81, 8)],
    [(-81, 1), (-81, 3), (-81, 5), (-81, 8)], [(324, 2), (648, 3), (405, 7), (324, 8)], [(-81, 2), (-243, 3), (-81, 7), (-162, 8)],
    [(324, 0), (324, 1), (324, 2), (810, 5), (-162, 7)], [(-81, 0), (-81, 1), (-81, 2), (-81, 3), (-162, 5), (-162, 8)],
    [(324, 1), (-81, 2), (324, 3), (405, 5), (-81, 7), (405, 8)], [(324, 0), (324, 2), (324, 3), (-162, 7), (810, 8)],
    [(810, 0), (648, 2), (648, 7)], [(405, 0), (324, 2), (324, 3), (648, 8)], [(-81, 0), (-81, 2), (-162, 3), (-243, 8)],
    [(-81, 1), (-81, 3), (-81, 5), (-81, 8)], [(-81, 1), (-81, 3), (-81, 5), (-81, 8)], [(-162, 2), (-243, 3), (-81, 7), (-81, 8)],
    [(-81, 2), (-162, 3), (-81, 7), (-81, 8)], [(-162, 0), (810, 1), (324, 2), (324, 5), (324, 7)],
    [(-81, 0), (405, 1), (-81, 2), (405, 3), (324, 5), (324, 8)], [(-162, 1), (-81, 2), (-162, 3), (-81, 5), (-81, 7), (-81, 8)],
    [(-162, 0), (324, 2), (810, 3), (324, 7), (324, 8)], [(810, 0), (648, 3), (648, 9)], [(-243, 0), (162, 3), (-243, 9)],
    [(-162, 1), (-81, 3), (-81, 6), (-81, 9)], [(-243, 1), (-162, 3), (-81, 6), (-81, 9)], [(-162, 2), (-81, 3), (-81, 8), (-81, 9)],
    [(-243, 2), (-162, 3), (-81, 8), (-81, 9)], [(-81, 0), (405, 1), (405, 2), (-81, 3), (324, 6), (324, 8)],
    [(-162, 0), (810, 1), (324, 3), (324, 6), (324, 9)], [(-162, 1), (-162, 2), (-81, 3), (-81, 6), (-81, 8), (-81, 9)],
    [(-162, 0), (810, 2), (324, 3), (324, 8), (324, 9)], [(648, 0), (648, 3), (810, 9)], [(-243, 1), (-81, 3), (-162, 6), (-81, 9)],
    [(648, 1), (324, 3), (324, 6), (405, 9)], [(-243, 2), (-81, 3), (-162, 8), (-81, 9)], [(648, 2), (324, 3), (324, 8), (405, 9)],
    [(-81, 0), (-81, 1), (-81, 2), (-81, 3), (-162, 6), (-162, 8)], [(324, 0), (324, 1), (324, 3), (810, 6), (-162, 9)],
    [(324, 1), (324, 2), (-81, 3), (405, 6), (405, 8), (-81, 9)], [(324, 0), (324, 2), (324, 3), (810, 8), (-162, 9)],
    [(810, 4), (648, 6), (648, 9)], [(-243, 4), (162, 6), (-243, 9)], [(-162, 5), (-81, 6), (-81, 8), (-81, 9)],
    [(-243, 5), (-162, 6), (-81, 8), (-81, 9)], [(405, 1), (324, 3), (-81, 4), (405, 5), (-81, 6), (324, 8)],
    [(810, 1), (324, 3), (-162, 4), (324, 6), (324, 9)], [(-162, 4), (810, 5), (324, 6), (324, 8), (324, 9)],
    [(-162, 1), (-81, 3), (-162, 5), (-81, 6), (-81, 8), (-81, 9)], [(648, 4), (648, 6), (810, 9)], [(-243, 5), (-81, 6), (-162, 8), (-81, 9)],
    [(648, 5), (324, 6), (324, 8), (405, 9)], [(-81, 1), (-162, 3), (-81, 4), (-81, 5), (-81, 6), (-162, 8)],
    [(324, 1), (810, 3), (324, 4), (324, 6), (-162, 9)], [(324, 4), (324, 5), (324, 6), (810, 8), (-162, 9)],
    [(324, 1), (405, 3), (324, 5), (-81, 6), (405, 8), (-81, 9)], [(810, 7), (648, 8), (648, 9)], [(-243, 7), (162, 8), (-243, 9)],
    [(405, 2), (324, 3), (405, 5), (324, 6), (-81, 7), (-81, 8)], [(-162, 2), (-81, 3), (-162, 5), (-81, 6), (-81, 8), (-81, 9)],
    [(810, 5), (324, 6), (-162, 7), (324, 8), (324, 9)], [(810, 2), (324, 3), (-162, 7), (324, 8), (324, 9)], [(648, 7), (648, 8), (810, 9)],
    [(-81, 2), (-162, 3), (-81, 5), (-162, 6), (-81, 7), (-81, 8)], [(324, 2), (405, 3), (324, 5), (405, 6), (-81, 8), (-81, 9)],
    [(324, 5), (810, 6), (324, 7), (324, 8), (-162, 9)], [(324, 2), (810, 3), (324, 7), (324, 8), (-162, 9)],
    [(1944, 0), (1944, 1), (1944, 2), (1944, 4), (1944, 5), (1944, 7)],
    [(972, 0), (972, 1), (972, 2), (972, 3), (972, 4), (972, 5), (972, 6), (1944, 8)],
    [(972, 1), (972, 2), (1944, 3), (972, 4), (972, 5), (972, 6), (972, 7), (972, 8)],
    [(972, 0), (972, 1), (972, 2), (972, 3), (972, 5), (1944, 6), (972, 7), (972, 8)],
    [(1944, 0), (1944, 1), (1944, 3), (1944, 4), (1944, 6), (1944, 9)],
    [(972, 1), (1944, 2), (972, 3), (972, 4), (972, 5), (972, 6), (972, 8), (972, 9)],
    [(972, 0), (972, 1), (972, 2), (972, 3), (1944, 5), (972, 6), (972, 8), (972, 9)],
    [(1944, 4), (1944, 5), (1944, 6), (1944, 7), (1944, 8), (1944, 9)],
    [(1944, 1), (972, 2), (972, 3), (972, 5), (972, 6), (972, 7), (972, 8), (972, 9)],
    [(1944, 0), (1944, 2), (1944, 3), (1944, 7), (1944, 8), (1944, 9)]]⟩

/-- Mass matrix of the element of the given order on simplices of the given dimension. -/
def mass : Nat → Nat → Table Int
  | 0, 1 => mass_0_1
  | 0, 2 => mass_0_2
  | 0, 3 => mass_0_3
  | 1, 1 => mass_1_1
  | 1, 2 => mass_1_2
  | 1, 3 => mass_1_3
  | 2, 1 => mass_2_1
  | 2, 2 => mass_2_2
  | 2, 3 => mass_2_3
  | 3, 1 => mass_3_1
  | 3, 2 => mass_3_2
  | 3, 3 => mass_3_3
  | _, _ => ⟨0, []⟩

/-- Rectangular mass matrix of P0 and P1. -/
def mass01 : Nat → Table Int
  | 1 => mass_01_1
  | 2 => mass_01_2
  | 3 => mass_01_3
  | _ => ⟨0, []⟩

/-- Stiffness matrix in one dimension. -/
def stiffness1 : Nat → Table Int
  | 1 => stiffness_1_1
  | 2 => stiffness_2_1
  | 3 => stiffness_3_1
  | _ => ⟨0, []⟩

/-- Stiffness matrix in two and three dimensions. -/
def stiffness : Nat → Nat → Table (List (Int × Nat))
  | 1, 2 => stiffness_1_2
  | 1, 3 => stiffness_1_3
  | 2, 2 => stiffness_2_2
  | 2, 3 => stiffness_2_3
  | 3, 2 => stiffness_3_2
  | 3, 3 => stiffness_3_3
  | _, _ => ⟨0, []⟩

variable {K : Type} [Field K]

/-- `eval` of a mass matrix: `contrib`. -/
def evalMass (T : Table Int) (volume : K) : List K :=
  let vol := (T.const : K) * volume
  T.factors.map fun a : Int => (a : K) * vol

/-- `eval` of a stiffness matrix in one dimension. -/
def evalStiffness1 (T : Table Int) (volume : K) : List K :=
  let vol := (T.const : K) / volume
  T.factors.map fun a : Int => (a : K) * vol

/-- `eval` of a stiffness matrix in two and three dimensions; `innerProducts`: `l00, l01, …`. -/
def evalStiffness (T : Table (List (Int × Nat))) (volume : K) (innerProducts : List K) : List K :=
  let vol := (T.const : K) / volume
  T.factors.map fun row => (row.map fun t : Int × Nat => (t.1 : K) * innerProducts.getD t.2 0).sum * vol

end PyNucleus.LocalMatrices
