import Verif.Model.Restriction
import Verif.Spec.Restriction
import Mathlib.Tactic.Ring
import Mathlib.Tactic.FieldSimp
import Mathlib.Tactic.NormNum

/-! # Evaluation of the tables of restriction operators -/


namespace PyNucleus.Restriction

open PyNucleus.ShapeFunctions

/-- All tables. -/
def tables : List Table := [t1p0, t2p0, t3p0, t1p1, t2p1, t3p1, t1p1p2, t2p1p2, t3p1p2, t1p1p3, t2p1p3, t3p1p3, t1p2, t2p2, t3p2, t1p2p3, t2p2p3, t3p2p3, t1p3, t2p3, t3p3]

/-- Barycentric coordinates of the node of a fine dof. -/
def Table.at (t : Table) (k q J : Nat) : List ℚ := outer t.dim ((subCells t.dim t.sub k).getD q []) ((nodes ℚ t.fine t.dim).getD J [])

/-- Largest error of the values: the constants of four tables have nine digits. -/
def Table.tol (t : Table) : ℚ := if t.digits = 9 then 1 / 2 / 10 ^ 9 else 0

def Table.shape (t : Table) (I : Nat) : Shape := (localShapeFunctions t.coarse t.dim).getD I .p0

/-- Nodes times 12. -/
def nodeN : Nat → Nat → List (List Nat)
  | 0, 1 => [[6, 6]]
  | 0, 2 => [[4, 4, 4]]
  | 0, 3 => [[3, 3, 3, 3]]
  | 1, 1 => [[12, 0], [0, 12]]
  | 1, 2 => [[12, 0, 0], [0, 12, 0], [0, 0, 12]]
  | 1, 3 => [[12, 0, 0, 0], [0, 12, 0, 0], [0, 0, 12, 0], [0, 0, 0, 12]]
  | 2, 1 => [[12, 0], [0, 12], [6, 6]]
  | 2, 2 => [[12, 0, 0], [0, 12, 0], [0, 0, 12], [6, 6, 0], [0, 6, 6], [6, 0, 6]]
  | 2, 3 => [[12, 0, 0, 0], [0, 12, 0, 0], [0, 0, 12, 0], [0, 0, 0, 12], [6, 6, 0, 0], [0, 6, 6, 0], [6, 0, 6, 0], [6, 0, 0, 6], [0, 6, 0, 6], [0, 0, 6, 6]]
  | 3, 1 => [[12, 0], [0, 12], [8, 4], [4, 8]]
  | 3, 2 => [[12, 0, 0], [0, 12, 0], [0, 0, 12], [8, 4, 0], [4, 8, 0], [0, 8, 4], [0, 4, 8], [4, 0, 8], [8, 0, 4], [4, 4, 4]]
  | 3, 3 => [[12, 0, 0, 0], [0, 12, 0, 0], [0, 0, 12, 0], [0, 0, 0, 12], [8, 4, 0, 0], [4, 8, 0, 0], [0, 8, 4, 0], [0, 4, 8, 0], [4, 0, 8, 0], [8, 0, 4, 0], [8, 0, 0, 4], [4, 0, 0, 8], [0, 8, 0, 4], [0, 4, 0, 8], [0, 0, 8, 4], [0, 0, 4, 8], [4, 4, 4, 0], [4, 4, 0, 4], [0, 4, 4, 4], [4, 0, 4, 4]]
  | _, _ => []

/-- Vertices of the sub-simplices times 2. -/
def childN : Nat → Nat → Nat → List (List (List Nat))
  | 1, 1, _ => [[[2, 0], [0, 2]]]
  | 1, 2, _ => [[[2, 0], [1, 1]], [[1, 1], [0, 2]]]
  | 2, 1, _ => [[[2, 0, 0], [0, 2, 0], [0, 0, 2]]]
  | 2, 4, _ => [[[2, 0, 0], [1, 1, 0], [1, 0, 1]], [[0, 2, 0], [0, 1, 1], [1, 1, 0]], [[0, 0, 2], [1, 0, 1], [0, 1, 1]], [[1, 1, 0], [0, 1, 1], [1, 0, 1]]]
  | 3, 1, _ => [[[2, 0, 0, 0], [0, 2, 0, 0], [0, 0, 2, 0], [0, 0, 0, 2]]]
  | 3, 8, 0 => [[[2, 0, 0, 0], [1, 1, 0, 0], [1, 0, 1, 0], [1, 0, 0, 1]], [[1, 1, 0, 0], [0, 2, 0, 0], [0, 1, 1, 0], [0, 1, 0, 1]], [[1, 0, 1, 0], [0, 1, 1, 0], [0, 0, 2, 0], [0, 0, 1, 1]], [[1, 0, 0, 1], [0, 1, 0, 1], [0, 0, 1, 1], [0, 0, 0, 2]], [[1, 1, 0, 0], [0, 1, 1, 0], [1, 0, 1, 0], [0, 0, 1, 1]], [[1, 1, 0, 0], [0, 0, 1, 1], [1, 0, 0, 1], [0, 1, 0, 1]], [[1, 1, 0, 0], [1, 0, 1, 0], [1, 0, 0, 1], [0, 0, 1, 1]], [[1, 1, 0, 0], [0, 1, 0, 1], [0, 1, 1, 0], [0, 0, 1, 1]]]
  | 3, 8, 1 => [[[2, 0, 0, 0], [1, 1, 0, 0], [1, 0, 1, 0], [1, 0, 0, 1]], [[1, 1, 0, 0], [0, 2, 0, 0], [0, 1, 1, 0], [0, 1, 0, 1]], [[1, 0, 1, 0], [0, 1, 1, 0], [0, 0, 2, 0], [0, 0, 1, 1]], [[1, 0, 0, 1], [0, 1, 0, 1], [0, 0, 1, 1], [0, 0, 0, 2]], [[1, 1, 0, 0], [1, 0, 1, 0], [1, 0, 0, 1], [0, 1, 0, 1]], [[1, 1, 0, 0], [0, 1, 1, 0], [1, 0, 1, 0], [0, 1, 0, 1]], [[1, 0, 1, 0], [1, 0, 0, 1], [0, 1, 0, 1], [0, 0, 1, 1]], [[1, 0, 1, 0], [0, 1, 0, 1], [0, 1, 1, 0], [0, 0, 1, 1]]]
  | 3, 8, _ => [[[2, 0, 0, 0], [1, 1, 0, 0], [1, 0, 1, 0], [1, 0, 0, 1]], [[1, 1, 0, 0], [0, 2, 0, 0], [0, 1, 1, 0], [0, 1, 0, 1]], [[1, 0, 1, 0], [0, 1, 1, 0], [0, 0, 2, 0], [0, 0, 1, 1]], [[1, 0, 0, 1], [0, 1, 0, 1], [0, 0, 1, 1], [0, 0, 0, 2]], [[1, 1, 0, 0], [0, 1, 0, 1], [0, 1, 1, 0], [1, 0, 0, 1]], [[1, 0, 0, 1], [0, 0, 1, 1], [0, 1, 0, 1], [0, 1, 1, 0]], [[1, 0, 0, 1], [0, 0, 1, 1], [0, 1, 1, 0], [1, 0, 1, 0]], [[1, 1, 0, 0], [0, 1, 1, 0], [1, 0, 1, 0], [1, 0, 0, 1]]]
  | _, _, _ => []

/-- Coordinates of the nodes of the fine dofs times 24, as digits with base 32. -/
def code : Nat → Nat → Nat → Nat → List (List Nat)
  | 1, 1, 2, _ => [[24, 768, 396]]
  | 1, 1, 3, _ => [[24, 768, 272, 520]]
  | 1, 2, 0, _ => [[210], [582]]
  | 1, 2, 1, _ => [[24, 396], [396, 768]]
  | 1, 2, 2, _ => [[24, 396, 210], [396, 768, 582]]
  | 1, 2, 3, _ => [[24, 396, 148, 272], [396, 768, 520, 644]]
  | 2, 1, 2, _ => [[24, 768, 24576, 396, 12672, 12300]]
  | 2, 1, 3, _ => [[24, 768, 24576, 272, 520, 8704, 16640, 16392, 8208, 8456]]
  | 2, 4, 0, _ => [[4240], [4612], [16516], [8456]]
  | 2, 4, 1, _ => [[24, 396, 12300], [768, 12672, 396], [24576, 12300, 12672], [396, 12672, 12300]]
  | 2, 4, 2, _ => [[24, 396, 12300, 210, 6348, 6162], [768, 12672, 396, 6720, 6534, 582], [24576, 12300, 12672, 18438, 12486, 18624], [396, 12672, 12300, 6534, 12486,
    6348]]
  | 2, 4, 3, _ => [[24, 396, 12300, 148, 272, 4364, 8332, 8208, 4116, 4240], [768, 12672, 396, 4736, 8704, 8580, 4488, 520, 644, 4612], [24576, 12300, 12672, 20484,
    16392, 12424, 12548, 16640, 20608, 16516], [396, 12672, 12300, 4488, 8580, 12548, 12424, 8332, 4364, 8456]]
  | 3, 1, 2, _ => [[24, 768, 24576, 786432, 396, 12672, 12300, 393228, 393600, 405504]]
  | 3, 1, 3, _ => [[24, 768, 24576, 786432, 272, 520, 8704, 16640, 16392, 8208, 262160, 524296, 262656, 524544, 278528, 532480, 8456, 262408, 270592, 270344]]
  | 3, 8, 0, 0 => [[101487], [101859], [113763], [494691], [107718], [298182], [202857], [203043]]
  | 3, 8, 0, 1 => [[101487], [101859], [113763], [494691], [199881], [104742], [301158], [206019]]
  | 3, 8, 0, _ => [[101487], [101859], [113763], [494691], [199974], [301251], [205926], [104649]]
  | 3, 8, 1, 0 => [[24, 396, 12300, 393228], [396, 768, 12672, 393600], [12300, 12672, 24576, 405504], [393228, 393600, 405504, 786432], [396, 12672, 12300, 405504],
    [396, 405504, 393228, 393600], [396, 12300, 393228, 405504], [396, 393600, 12672, 405504]]
  | 3, 8, 1, 1 => [[24, 396, 12300, 393228], [396, 768, 12672, 393600], [12300, 12672, 24576, 405504], [393228, 393600, 405504, 786432], [396, 12300, 393228, 393600],
    [396, 12672, 12300, 393600], [12300, 393228, 393600, 405504], [12300, 393600, 12672, 405504]]
  | 3, 8, 1, _ => [[24, 396, 12300, 393228], [396, 768, 12672, 393600], [12300, 12672, 24576, 405504], [393228, 393600, 405504, 786432], [396, 393600, 12672, 393228],
    [393228, 405504, 393600, 12672], [393228, 405504, 12672, 12300], [396, 12672, 12300, 393228]]
  | 3, 8, 2, 0 => [[24, 396, 12300, 393228, 210, 6348, 6162, 196626, 196812, 202764], [396, 768, 12672, 393600, 582, 6720, 6534, 196998, 197184, 203136], [12300, 12672,
    24576, 405504, 12486, 18624, 18438, 208902, 209088, 215040], [393228, 393600, 405504, 786432, 393414, 399552, 399366, 589830, 590016, 595968], [396, 12672, 12300,
    405504, 6534, 12486, 6348, 202950, 209088, 208902], [396, 405504, 393228, 393600, 202950, 399366, 196812, 196998, 399552, 393414], [396, 12300, 393228, 405504, 6348,
    202764, 196812, 202950, 208902, 399366], [396, 393600, 12672, 405504, 196998, 203136, 6534, 202950, 399552, 209088]]
  | 3, 8, 2, 1 => [[24, 396, 12300, 393228, 210, 6348, 6162, 196626, 196812, 202764], [396, 768, 12672, 393600, 582, 6720, 6534, 196998, 197184, 203136], [12300, 12672,
    24576, 405504, 12486, 18624, 18438, 208902, 209088, 215040], [393228, 393600, 405504, 786432, 393414, 399552, 399366, 589830, 590016, 595968], [396, 12300, 393228,
    393600, 6348, 202764, 196812, 196998, 202950, 393414], [396, 12672, 12300, 393600, 6534, 12486, 6348, 196998, 203136, 202950], [12300, 393228, 393600, 405504, 202764,
    393414, 202950, 208902, 399366, 399552], [12300, 393600, 12672, 405504, 202950, 203136, 12486, 208902, 399552, 209088]]
  | 3, 8, 2, _ => [[24, 396, 12300, 393228, 210, 6348, 6162, 196626, 196812, 202764], [396, 768, 12672, 393600, 582, 6720, 6534, 196998, 197184, 203136], [12300, 12672,
    24576, 405504, 12486, 18624, 18438, 208902, 209088, 215040], [393228, 393600, 405504, 786432, 393414, 399552, 399366, 589830, 590016, 595968], [396, 393600, 12672,
    393228, 196998, 203136, 6534, 196812, 393414, 202950], [393228, 405504, 393600, 12672, 399366, 399552, 393414, 202950, 209088, 203136], [393228, 405504, 12672, 12300,
    399366, 209088, 202950, 202764, 208902, 12486], [396, 12672, 12300, 393228, 6534, 12486, 6348, 196812, 202950, 202764]]
  | 3, 8, 3, 0 => [[24, 396, 12300, 393228, 148, 272, 4364, 8332, 8208, 4116, 131092, 262160, 131340, 262284, 139276, 266252, 4240, 131216, 135308, 135184], [396, 768,
    12672, 393600, 520, 644, 4736, 8704, 8580, 4488, 131464, 262532, 131712, 262656, 139648, 266624, 4612, 131588, 135680, 135556], [12300, 12672, 24576, 405504, 12424,
    12548, 16640, 20608, 20484, 16392, 143368, 274436, 143616, 274560, 151552, 278528, 16516, 143492, 147584, 147460], [393228, 393600, 405504, 786432, 393352, 393476,
    397568, 401536, 401412, 397320, 524296, 655364, 524544, 655488, 532480, 659456, 397444, 524420, 528512, 528388], [396, 12672, 12300, 405504, 4488, 8580, 12548, 12424,
    8332, 4364, 135432, 270468, 143616, 274560, 143368, 274436, 8456, 139524, 143492, 139400], [396, 405504, 393228, 393600, 135432, 270468, 401412, 397320, 262284,
    131340, 131464, 262532, 401536, 397568, 393352, 393476, 266376, 266500, 397444, 262408], [396, 12300, 393228, 405504, 4364, 8332, 139276, 266252, 262284, 131340,
    135432, 270468, 143368, 274436, 397320, 401412, 135308, 139400, 270344, 266376], [396, 393600, 12672, 405504, 131464, 262532, 266624, 139648, 8580, 4488, 135432,
    270468, 397568, 401536, 143616, 274560, 135556, 266500, 270592, 139524]]
  | 3, 8, 3, 1 => [[24, 396, 12300, 393228, 148, 272, 4364, 8332, 8208, 4116, 131092, 262160, 131340, 262284, 139276, 266252, 4240, 131216, 135308, 135184], [396, 768,
    12672, 393600, 520, 644, 4736, 8704, 8580, 4488, 131464, 262532, 131712, 262656, 139648, 266624, 4612, 131588, 135680, 135556], [12300, 12672, 24576, 405504, 12424,
    12548, 16640, 20608, 20484, 16392, 143368, 274436, 143616, 274560, 151552, 278528, 16516, 143492, 147584, 147460], [393228, 393600, 405504, 786432, 393352, 393476,
    397568, 401536, 401412, 397320, 524296, 655364, 524544, 655488, 532480, 659456, 397444, 524420, 528512, 528388], [396, 12300, 393228, 393600, 4364, 8332, 139276,
    266252, 262284, 131340, 131464, 262532, 139400, 266500, 393352, 393476, 135308, 135432, 266376, 262408], [396, 12672, 12300, 393600, 4488, 8580, 12548, 12424, 8332,
    4364, 131464, 262532, 139648, 266624, 139400, 266500, 8456, 135556, 139524, 135432], [12300, 393228, 393600, 405504, 139276, 266252, 393352, 393476, 266500, 139400,
    143368, 274436, 397320, 401412, 397568, 401536, 266376, 270344, 397444, 270468], [12300, 393600, 12672, 405504, 139400, 266500, 266624, 139648, 12548, 12424, 143368,
    274436, 397568, 401536, 143616, 274560, 139524, 270468, 270592, 143492]]
  | 3, 8, 3, _ => [[24, 396, 12300, 393228, 148, 272, 4364, 8332, 8208, 4116, 131092, 262160, 131340, 262284, 139276, 266252, 4240, 131216, 135308, 135184], [396, 768,
    12672, 393600, 520, 644, 4736, 8704, 8580, 4488, 131464, 262532, 131712, 262656, 139648, 266624, 4612, 131588, 135680, 135556], [12300, 12672, 24576, 405504, 12424,
    12548, 16640, 20608, 20484, 16392, 143368, 274436, 143616, 274560, 151552, 278528, 16516, 143492, 147584, 147460], [393228, 393600, 405504, 786432, 393352, 393476,
    397568, 401536, 401412, 397320, 524296, 655364, 524544, 655488, 532480, 659456, 397444, 524420, 528512, 528388], [396, 393600, 12672, 393228, 131464, 262532, 266624,
    139648, 8580, 4488, 131340, 262284, 393476, 393352, 139524, 266376, 135556, 262408, 266500, 135432], [393228, 405504, 393600, 12672, 397320, 401412, 401536, 397568,
    393476, 393352, 266376, 139524, 274560, 143616, 266624, 139648, 397444, 270468, 270592, 266500], [393228, 405504, 12672, 12300, 397320, 401412, 274560, 143616,
    139524, 266376, 266252, 139276, 274436, 143368, 12548, 12424, 270468, 270344, 143492, 139400], [396, 12672, 12300, 393228, 4488, 8580, 12548, 12424, 8332, 4364,
    131340, 262284, 139524, 266376, 139276, 266252, 8456, 135432, 139400, 135308]]
  | _, _, _, _ => []

/-- The different numbers in `code`. -/
def codes : Nat → Nat → Nat → Nat → List Nat
  | 1, 1, 2, _ => [24, 396, 768]
  | 1, 1, 3, _ => [24, 272, 520, 768]
  | 1, 2, 0, _ => [210, 582]
  | 1, 2, 1, _ => [24, 396, 768]
  | 1, 2, 2, _ => [24, 210, 396, 582, 768]
  | 1, 2, 3, _ => [24, 148, 272, 396, 520, 644, 768]
  | 2, 1, 2, _ => [24, 396, 768, 12300, 12672, 24576]
  | 2, 1, 3, _ => [24, 272, 520, 768, 8208, 8456, 8704, 16392, 16640, 24576]
  | 2, 4, 0, _ => [4240, 4612, 8456, 16516]
  | 2, 4, 1, _ => [24, 396, 768, 12300, 12672, 24576]
  | 2, 4, 2, _ => [24, 210, 396, 582, 768, 6162, 6348, 6534, 6720, 12300, 12486, 12672, 18438, 18624, 24576]
  | 2, 4, 3, _ => [24, 148, 272, 396, 520, 644, 768, 4116, 4240, 4364, 4488, 4612, 4736, 8208, 8332, 8456, 8580, 8704, 12300, 12424, 12548, 12672, 16392, 16516, 16640,
    20484, 20608, 24576]
  | 3, 1, 2, _ => [24, 396, 768, 12300, 12672, 24576, 393228, 393600, 405504, 786432]
  | 3, 1, 3, _ => [24, 272, 520, 768, 8208, 8456, 8704, 16392, 16640, 24576, 262160, 262408, 262656, 270344, 270592, 278528, 524296, 524544, 532480, 786432]
  | 3, 8, 0, 0 => [101487, 101859, 107718, 113763, 202857, 203043, 298182, 494691]
  | 3, 8, 0, 1 => [101487, 101859, 104742, 113763, 199881, 206019, 301158, 494691]
  | 3, 8, 0, _ => [101487, 101859, 104649, 113763, 199974, 205926, 301251, 494691]
  | 3, 8, 1, 0 => [24, 396, 768, 12300, 12672, 24576, 393228, 393600, 405504, 786432]
  | 3, 8, 1, 1 => [24, 396, 768, 12300, 12672, 24576, 393228, 393600, 405504, 786432]
  | 3, 8, 1, _ => [24, 396, 768, 12300, 12672, 24576, 393228, 393600, 405504, 786432]
  | 3, 8, 2, 0 => [24, 210, 396, 582, 768, 6162, 6348, 6534, 6720, 12300, 12486, 12672, 18438, 18624, 24576, 196626, 196812, 196998, 197184, 202764, 202950, 203136,
    208902, 209088, 215040, 393228, 393414, 393600, 399366, 399552, 405504, 589830, 590016, 595968, 786432]
  | 3, 8, 2, 1 => [24, 210, 396, 582, 768, 6162, 6348, 6534, 6720, 12300, 12486, 12672, 18438, 18624, 24576, 196626, 196812, 196998, 197184, 202764, 202950, 203136,
    208902, 209088, 215040, 393228, 393414, 393600, 399366, 399552, 405504, 589830, 590016, 595968, 786432]
  | 3, 8, 2, _ => [24, 210, 396, 582, 768, 6162, 6348, 6534, 6720, 12300, 12486, 12672, 18438, 18624, 24576, 196626, 196812, 196998, 197184, 202764, 202950, 203136,
    208902, 209088, 215040, 393228, 393414, 393600, 399366, 399552, 405504, 589830, 590016, 595968, 786432]
  | 3, 8, 3, 0 => [24, 148, 272, 396, 520, 644, 768, 4116, 4240, 4364, 4488, 4612, 4736, 8208, 8332, 8456, 8580, 8704, 12300, 12424, 12548, 12672, 16392, 16516, 16640,
    20484, 20608, 24576, 131092, 131216, 131340, 131464, 131588, 131712, 135184, 135308, 135432, 135556, 135680, 139276, 139400, 139524, 139648, 143368, 143492, 143616,
    147460, 147584, 151552, 262160, 262284, 262408, 262532, 262656, 266252, 266376, 266500, 266624, 270344, 270468, 270592, 274436, 274560, 278528, 393228, 393352,
    393476, 393600, 397320, 397444, 397568, 401412, 401536, 405504, 524296, 524420, 524544, 528388, 528512, 532480, 655364, 655488, 659456, 786432]
  | 3, 8, 3, 1 => [24, 148, 272, 396, 520, 644, 768, 4116, 4240, 4364, 4488, 4612, 4736, 8208, 8332, 8456, 8580, 8704, 12300, 12424, 12548, 12672, 16392, 16516, 16640,
    20484, 20608, 24576, 131092, 131216, 131340, 131464, 131588, 131712, 135184, 135308, 135432, 135556, 135680, 139276, 139400, 139524, 139648, 143368, 143492, 143616,
    147460, 147584, 151552, 262160, 262284, 262408, 262532, 262656, 266252, 266376, 266500, 266624, 270344, 270468, 270592, 274436, 274560, 278528, 393228, 393352,
    393476, 393600, 397320, 397444, 397568, 401412, 401536, 405504, 524296, 524420, 524544, 528388, 528512, 532480, 655364, 655488, 659456, 786432]
  | 3, 8, 3, _ => [24, 148, 272, 396, 520, 644, 768, 4116, 4240, 4364, 4488, 4612, 4736, 8208, 8332, 8456, 8580, 8704, 12300, 12424, 12548, 12672, 16392, 16516, 16640,
    20484, 20608, 24576, 131092, 131216, 131340, 131464, 131588, 131712, 135184, 135308, 135432, 135556, 135680, 139276, 139400, 139524, 139648, 143368, 143492, 143616,
    147460, 147584, 151552, 262160, 262284, 262408, 262532, 262656, 266252, 266376, 266500, 266624, 270344, 270468, 270592, 274436, 274560, 278528, 393228, 393352,
    393476, 393600, 397320, 397444, 397568, 401412, 401536, 405504, 524296, 524420, 524544, 528388, 528512, 532480, 655364, 655488, 659456, 786432]
  | _, _, _, _ => []

/-- Codes of the nodes of the fine dofs in the rows of the local dofs. -/
def rows : Nat → Nat → Nat → Nat → List (List Nat)
  | 1, 0, 0, _ => [[210, 582]]
  | 2, 0, 0, _ => [[4240, 4612, 16516, 8456]]
  | 3, 0, 0, 0 => [[101859, 494691, 101487, 113763, 298182, 203043, 202857, 107718]]
  | 3, 0, 0, 1 => [[101859, 494691, 101487, 113763, 206019, 199881, 104742, 301158]]
  | 3, 0, 0, _ => [[101859, 494691, 101487, 113763, 199974, 301251, 205926, 104649]]
  | 1, 1, 1, _ => [[24, 396], [396, 768]]
  | 2, 1, 1, _ => [[24, 396, 12300], [396, 768, 12672], [12300, 12672, 24576]]
  | 3, 1, 1, 0 => [[393228, 396, 12300, 24], [393600, 396, 12672, 768], [405504, 24576, 12672, 12300], [393228, 393600, 405504, 786432]]
  | 3, 1, 1, 1 => [[393228, 396, 12300, 24], [393600, 396, 12672, 768], [405504, 24576, 12672, 12300], [393228, 393600, 405504, 786432]]
  | 3, 1, 1, _ => [[393228, 396, 12300, 24], [393600, 396, 12672, 768], [405504, 24576, 12672, 12300], [393228, 393600, 405504, 786432]]
  | 1, 1, 2, _ => [[24, 396], [768, 396]]
  | 2, 1, 2, _ => [[24, 396, 12300], [768, 396, 12672], [24576, 12672, 12300]]
  | 3, 1, 2, _ => [[24, 396, 12300, 393228], [768, 396, 12672, 393600], [24576, 12672, 12300, 405504], [786432, 393228, 393600, 405504]]
  | 1, 1, 3, _ => [[24, 272, 520], [768, 272, 520]]
  | 2, 1, 3, _ => [[24, 272, 520, 16392, 8208, 8456], [768, 272, 520, 8704, 16640, 8456], [24576, 8704, 16640, 16392, 8208, 8456]]
  | 3, 1, 3, _ => [[24, 272, 520, 16392, 8208, 262160, 524296, 8456, 262408, 270344], [768, 272, 520, 8704, 16640, 262656, 524544, 8456, 262408, 270592], [24576, 8704,
    16640, 16392, 8208, 278528, 532480, 8456, 270592, 270344], [786432, 262160, 524296, 262656, 524544, 278528, 532480, 262408, 270592, 270344]]
  | 1, 2, 2, _ => [[24, 210, 582], [210, 768, 582], [396, 210, 582]]
  | 2, 2, 2, _ => [[24, 210, 6162, 6534, 582, 18438, 12486], [210, 6348, 768, 6720, 582, 12486, 18624], [6348, 6162, 6720, 6534, 24576, 18438, 18624], [396, 210, 6348,
    6534, 582, 12486], [6348, 12672, 6720, 6534, 12486, 18624], [12300, 6348, 6162, 6534, 18438, 12486]]
  | 3, 2, 2, 0 => [[12486, 196626, 393414, 589830, 6162, 18438, 210, 399366, 6534, 24, 582, 208902, 196998, 202950], [209088, 399552, 12486, 590016, 393414, 196812, 582,
    6348, 768, 210, 6720, 197184, 18624, 202950], [399552, 202764, 18438, 595968, 399366, 6534, 24576, 6348, 6162, 18624, 203136, 6720, 215040, 202950], [215040, 590016,
    209088, 202764, 595968, 589830, 196812, 196626, 786432, 203136, 208902, 196998, 197184, 202950], [396, 582, 196998, 12486, 393414, 196812, 6534, 210, 6348, 202950],
    [18624, 203136, 12486, 209088, 12672, 399552, 6534, 6348, 6720, 202950], [12300, 208902, 12486, 202764, 6162, 18438, 399366, 6534, 6348, 202950], [196998, 393228,
    589830, 202764, 208902, 196812, 393414, 399366, 196626, 202950], [203136, 393600, 399552, 196998, 209088, 196812, 590016, 393414, 197184, 202950], [208902, 399552,
    405504, 215040, 202764, 595968, 209088, 399366, 203136, 202950]]
  | 3, 2, 2, 1 => [[12486, 196626, 393414, 589830, 6162, 18438, 210, 399366, 6534, 24, 582, 208902, 196998, 202950], [209088, 399552, 12486, 590016, 393414, 196812, 582,
    6348, 768, 210, 6720, 197184, 18624, 202950], [399552, 202764, 18438, 595968, 399366, 6534, 24576, 6348, 6162, 18624, 203136, 6720, 215040, 202950], [215040, 590016,
    209088, 202764, 595968, 589830, 196812, 196626, 786432, 203136, 208902, 196998, 197184, 202950], [396, 582, 196998, 12486, 393414, 196812, 6534, 210, 6348, 202950],
    [18624, 203136, 12486, 209088, 12672, 399552, 6534, 6348, 6720, 202950], [12300, 208902, 12486, 202764, 6162, 18438, 399366, 6534, 6348, 202950], [196998, 393228,
    589830, 202764, 208902, 196812, 393414, 399366, 196626, 202950], [203136, 393600, 399552, 196998, 209088, 196812, 590016, 393414, 197184, 202950], [208902, 399552,
    405504, 215040, 202764, 595968, 209088, 399366, 203136, 202950]]
  | 3, 2, 2, _ => [[12486, 196626, 393414, 589830, 6162, 18438, 210, 399366, 6534, 24, 582, 208902, 196998, 202950], [209088, 399552, 12486, 590016, 393414, 196812, 582,
    6348, 768, 210, 6720, 197184, 18624, 202950], [399552, 202764, 18438, 595968, 399366, 6534, 24576, 6348, 6162, 18624, 203136, 6720, 215040, 202950], [215040, 590016,
    209088, 202764, 595968, 589830, 196812, 196626, 786432, 203136, 208902, 196998, 197184, 202950], [396, 582, 196998, 12486, 393414, 196812, 6534, 210, 6348, 202950],
    [18624, 203136, 12486, 209088, 12672, 399552, 6534, 6348, 6720, 202950], [12300, 208902, 12486, 202764, 6162, 18438, 399366, 6534, 6348, 202950], [196998, 393228,
    589830, 202764, 208902, 196812, 393414, 399366, 196626, 202950], [203136, 393600, 399552, 196998, 209088, 196812, 590016, 393414, 197184, 202950], [208902, 399552,
    405504, 215040, 202764, 595968, 209088, 399366, 203136, 202950]]
  | 1, 2, 3, _ => [[24, 272, 520], [768, 272, 520], [272, 520]]
  | 2, 2, 3, _ => [[24, 272, 520, 16392, 8208, 8456], [768, 272, 520, 8704, 16640, 8456], [24576, 8704, 16640, 16392, 8208, 8456], [272, 520, 8456], [8704, 16640, 8456],
    [16392, 8208, 8456]]
  | 3, 2, 3, _ => [[24, 272, 520, 16392, 8208, 262160, 524296, 8456, 262408, 270344], [768, 272, 520, 8704, 16640, 262656, 524544, 8456, 262408, 270592], [24576, 8704,
    16640, 16392, 8208, 278528, 532480, 8456, 270592, 270344], [786432, 262160, 524296, 262656, 524544, 278528, 532480, 262408, 270592, 270344], [272, 520, 8456, 262408],
    [8704, 16640, 8456, 270592], [16392, 8208, 8456, 270344], [262160, 524296, 262408, 270344], [262656, 524544, 262408, 270592], [278528, 532480, 270592, 270344]]
  | 1, 3, 3, _ => [[24, 396, 148, 644], [396, 148, 768, 644], [396, 148, 272, 644], [396, 148, 520, 644]]
  | 2, 3, 3, _ => [[24, 396, 12300, 148, 4364, 8332, 4116, 8580, 644, 4612, 20484, 12548, 16516], [396, 148, 8332, 4240, 768, 12672, 4736, 8580, 4488, 644, 12424, 20608,
    16516], [12300, 4364, 4116, 4240, 12672, 4736, 4488, 4612, 24576, 20484, 12424, 12548, 20608], [396, 148, 272, 4364, 8332, 4240, 8580, 644, 4612, 12548, 16516], [396,
    148, 8332, 4240, 8580, 4488, 520, 644, 4612, 12424, 16516], [8332, 4240, 12672, 4736, 8704, 8580, 4488, 4612, 12424, 20608, 16516], [4364, 4240, 12672, 4736, 4488,
    4612, 12424, 12548, 16640, 20608, 16516], [12300, 4364, 4116, 4240, 4488, 4612, 20484, 16392, 12424, 12548, 16516], [12300, 4364, 8332, 8208, 4116, 4240, 8580, 4612,
    20484, 12548, 16516], [4364, 8332, 4240, 8580, 4488, 4612, 12424, 12548, 16516, 8456]]
  | 3, 3, 3, 0 => [[12300, 393476, 143492, 147460, 524420, 396, 393228, 135556, 266252, 131092, 262532, 131340, 148, 4116, 8580, 139276, 397444, 4612, 655364, 528388,
    4364, 16516, 274436, 135308, 8332, 262284, 131588, 12548, 24, 401412, 644, 20484, 266500, 270468, 139524], [12424, 143492, 524420, 8580, 396, 266624, 131464, 393352,
    135308, 8332, 393600, 4736, 528512, 139648, 262284, 12672, 274560, 397444, 768, 401536, 148, 655488, 4240, 131216, 131712, 16516, 644, 135556, 20608, 4488, 147584,
    262532, 270468, 139400, 266376], [12300, 135184, 4364, 274560, 135556, 143616, 405504, 24576, 4488, 12548, 135308, 274436, 528512, 12672, 12424, 266624, 135680,
    397568, 397444, 4612, 4116, 143492, 4736, 528388, 143368, 20484, 4240, 20608, 266252, 659456, 151552, 397320, 266500, 135432, 266376], [151552, 135184, 147460,
    143492, 397444, 397568, 393228, 401536, 135556, 405504, 143368, 786432, 135308, 393600, 655488, 131092, 659456, 135680, 401412, 397320, 655364, 143616, 131464,
    393476, 131216, 139648, 131712, 131588, 131340, 393352, 139276, 147584, 135432, 139524, 139400], [272, 12548, 8580, 396, 135308, 644, 393476, 397444, 16516, 262284,
    8332, 524420, 131340, 4612, 4364, 148, 4240, 135556, 131216, 262532, 143492, 131588, 270468, 266500, 139524], [148, 4488, 131588, 262284, 644, 12424, 396, 135556,
    397444, 16516, 262532, 131464, 393352, 8580, 4612, 520, 4240, 131216, 524420, 135308, 143492, 8332, 270468, 266376, 139400], [147584, 12672, 135308, 528512, 274560,
    20608, 135556, 8580, 397444, 4488, 4240, 8332, 135680, 143492, 139648, 266624, 4612, 16516, 4736, 401536, 12424, 8704, 266376, 270468, 139400], [12672, 135308,
    528512, 20608, 12424, 147584, 143492, 266624, 16640, 4364, 143616, 397444, 274560, 12548, 4240, 135680, 4612, 397568, 16516, 4736, 4488, 135556, 135432, 266376,
    266500], [20484, 135556, 147460, 135184, 143492, 397320, 16392, 397444, 4612, 528388, 4488, 266252, 4364, 12300, 4240, 16516, 274436, 4116, 12548, 12424, 135308,
    143368, 135432, 266500, 266376], [8332, 135556, 135184, 147460, 20484, 401412, 4364, 8208, 135308, 397444, 4612, 12548, 274436, 528388, 139276, 143492, 16516, 8580,
    4116, 4240, 12300, 266252, 266500, 270468, 139524], [274436, 655364, 131340, 393228, 139276, 135556, 135184, 524420, 262284, 397444, 135308, 131092, 401412, 262532,
    266252, 262160, 528388, 131588, 393476, 147460, 131216, 143492, 139524, 266500, 270468], [393352, 393228, 135556, 135184, 524420, 393476, 131340, 143368, 524296,
    397444, 139276, 131092, 528388, 131588, 397320, 131216, 131464, 401412, 655364, 147460, 135308, 143492, 135432, 139524, 139400], [655488, 393352, 262532, 131712,
    135308, 131588, 524420, 393600, 397444, 401536, 262656, 135556, 528512, 266624, 131216, 135680, 262284, 274560, 131464, 147584, 139648, 143492, 139400, 270468,
    266376], [135308, 131340, 524420, 131712, 393600, 397568, 524544, 131464, 393352, 528512, 139648, 131216, 397444, 135680, 401536, 655488, 147584, 143616, 393476,
    135556, 143492, 131588, 135432, 139400, 139524], [266252, 405504, 135556, 659456, 135308, 147460, 397568, 143492, 147584, 274560, 143368, 397444, 151552, 278528,
    528512, 135680, 274436, 397320, 143616, 266624, 528388, 135184, 135432, 266500, 266376], [397320, 139648, 147584, 405504, 135556, 135308, 147460, 139276, 143616,
    135680, 151552, 401536, 528512, 397444, 143492, 401412, 397568, 528388, 659456, 143368, 135184, 532480, 135432, 139524, 139400], [8332, 12548, 12424, 135308, 4240,
    4364, 4488, 16516, 8580, 135556, 4612, 397444, 143492, 270468, 266376, 266500, 135432, 8456, 139400, 139524], [143492, 393476, 135308, 393352, 131588, 131464, 397444,
    262532, 135556, 524420, 131340, 262284, 131216, 270468, 266500, 139524, 139400, 135432, 262408, 266376], [528512, 274560, 266624, 397568, 401536, 139648, 135680,
    397444, 135308, 135556, 147584, 143616, 143492, 135432, 266500, 139400, 266376, 270468, 270592, 139524], [528388, 401412, 274436, 135308, 266252, 143368, 397444,
    135184, 147460, 135556, 139276, 397320, 143492, 135432, 139524, 266500, 270468, 266376, 139400, 270344]]
  | 3, 3, 3, 1 => [[12300, 393476, 143492, 147460, 524420, 396, 393228, 135556, 266252, 131092, 262532, 131340, 148, 4116, 8580, 139276, 397444, 4612, 655364, 528388,
    4364, 16516, 274436, 135308, 8332, 262284, 131588, 12548, 24, 401412, 644, 20484, 266500, 270468, 139524], [12424, 143492, 524420, 8580, 396, 266624, 131464, 393352,
    135308, 8332, 393600, 4736, 528512, 139648, 262284, 12672, 274560, 397444, 768, 401536, 148, 655488, 4240, 131216, 131712, 16516, 644, 135556, 20608, 4488, 147584,
    262532, 266376, 139400, 270468], [12300, 135184, 4364, 274560, 135556, 143616, 405504, 24576, 4488, 12548, 135308, 274436, 528512, 12672, 12424, 266624, 135680,
    397568, 397444, 4612, 4116, 143492, 4736, 528388, 143368, 20484, 4240, 20608, 266252, 659456, 151552, 397320, 135432, 266376, 266500], [151552, 135184, 147460,
    143492, 397444, 397568, 393228, 401536, 135556, 405504, 143368, 786432, 135308, 393600, 655488, 131092, 659456, 135680, 401412, 397320, 655364, 143616, 131464,
    393476, 131216, 139648, 131712, 131588, 131340, 393352, 139276, 147584, 139400, 135432, 139524], [272, 12548, 8580, 396, 135308, 644, 393476, 397444, 16516, 262284,
    8332, 524420, 131340, 4612, 4364, 148, 4240, 135556, 131216, 262532, 143492, 131588, 266500, 270468, 139524], [148, 4488, 131588, 262284, 644, 12424, 396, 135556,
    397444, 16516, 262532, 131464, 393352, 8580, 4612, 520, 4240, 131216, 524420, 135308, 143492, 8332, 139400, 266376, 270468], [147584, 12672, 135308, 528512, 274560,
    20608, 135556, 8580, 397444, 4488, 4240, 8332, 135680, 143492, 139648, 266624, 4612, 16516, 4736, 401536, 12424, 8704, 139400, 270468, 266376], [12672, 135308,
    528512, 20608, 12424, 147584, 143492, 266624, 16640, 4364, 143616, 397444, 274560, 12548, 4240, 135680, 4612, 397568, 16516, 4736, 4488, 135556, 266500, 135432,
    266376], [20484, 135556, 147460, 135184, 143492, 397320, 16392, 397444, 4612, 528388, 4488, 266252, 4364, 12300, 4240, 16516, 274436, 4116, 12548, 12424, 135308,
    143368, 266500, 266376, 135432], [8332, 135556, 135184, 147460, 20484, 401412, 4364, 8208, 135308, 397444, 4612, 12548, 274436, 528388, 139276, 143492, 16516, 8580,
    4116, 4240, 12300, 266252, 270468, 266500, 139524], [274436, 655364, 131340, 393228, 139276, 135556, 135184, 524420, 262284, 397444, 135308, 131092, 401412, 262532,
    266252, 262160, 528388, 131588, 393476, 147460, 131216, 143492, 270468, 266500, 139524], [393352, 393228, 135556, 135184, 524420, 393476, 131340, 143368, 524296,
    397444, 139276, 131092, 528388, 131588, 397320, 131216, 131464, 401412, 655364, 147460, 135308, 143492, 139400, 135432, 139524], [655488, 393352, 262532, 131712,
    135308, 131588, 524420, 393600, 397444, 401536, 262656, 135556, 528512, 266624, 131216, 135680, 262284, 274560, 131464, 147584, 139648, 143492, 139400, 270468,
    266376], [135308, 131340, 524420, 131712, 393600, 397568, 524544, 131464, 393352, 528512, 139648, 131216, 397444, 135680, 401536, 655488, 147584, 143616, 393476,
    135556, 143492, 131588, 139400, 135432, 139524], [266252, 405504, 135556, 659456, 135308, 147460, 397568, 143492, 147584, 274560, 143368, 397444, 151552, 278528,
    528512, 135680, 274436, 397320, 143616, 266624, 528388, 135184, 266376, 266500, 135432], [397320, 139648, 147584, 405504, 135556, 135308, 147460, 139276, 143616,
    135680, 151552, 401536, 528512, 397444, 143492, 401412, 397568, 528388, 659456, 143368, 135184, 532480, 139400, 135432, 139524], [8332, 12548, 12424, 135308, 4240,
    4364, 4488, 16516, 8580, 135556, 4612, 397444, 143492, 139400, 135432, 270468, 266376, 266500, 8456, 139524], [143492, 393476, 135308, 393352, 131588, 131464, 397444,
    262532, 135556, 524420, 131340, 262284, 131216, 266500, 266376, 135432, 139400, 270468, 139524, 262408], [528512, 274560, 266624, 397568, 401536, 139648, 135680,
    397444, 135308, 135556, 147584, 143616, 143492, 266500, 135432, 139400, 270592, 266376, 270468, 139524], [528388, 401412, 274436, 135308, 266252, 143368, 397444,
    135184, 147460, 135556, 139276, 397320, 143492, 139400, 270344, 266376, 135432, 139524, 266500, 270468]]
  | 3, 3, 3, _ => [[12300, 393476, 143492, 147460, 524420, 396, 393228, 135556, 266252, 131092, 262532, 131340, 148, 4116, 8580, 139276, 397444, 4612, 655364, 528388,
    4364, 16516, 274436, 135308, 8332, 262284, 131588, 12548, 24, 401412, 644, 20484, 139524, 266500, 270468], [12424, 143492, 524420, 8580, 396, 266624, 131464, 393352,
    135308, 8332, 393600, 4736, 528512, 139648, 262284, 12672, 274560, 397444, 768, 401536, 148, 655488, 4240, 131216, 131712, 16516, 644, 135556, 20608, 4488, 147584,
    262532, 139400, 270468, 266376], [12300, 135184, 4364, 274560, 135556, 143616, 405504, 24576, 4488, 12548, 135308, 274436, 528512, 12672, 12424, 266624, 135680,
    397568, 397444, 4612, 4116, 143492, 4736, 528388, 143368, 20484, 4240, 20608, 266252, 659456, 151552, 397320, 266500, 135432, 266376], [151552, 135184, 147460,
    143492, 397444, 397568, 393228, 401536, 135556, 405504, 143368, 786432, 135308, 393600, 655488, 131092, 659456, 135680, 401412, 397320, 655364, 143616, 131464,
    393476, 131216, 139648, 131712, 131588, 131340, 393352, 139276, 147584, 139400, 139524, 135432], [272, 12548, 8580, 396, 135308, 644, 393476, 397444, 16516, 262284,
    8332, 524420, 131340, 4612, 4364, 148, 4240, 135556, 131216, 262532, 143492, 131588, 270468, 139524, 266500], [148, 4488, 131588, 262284, 644, 12424, 396, 135556,
    397444, 16516, 262532, 131464, 393352, 8580, 4612, 520, 4240, 131216, 524420, 135308, 143492, 8332, 270468, 139400, 266376], [147584, 12672, 135308, 528512, 274560,
    20608, 135556, 8580, 397444, 4488, 4240, 8332, 135680, 143492, 139648, 266624, 4612, 16516, 4736, 401536, 12424, 8704, 139400, 266376, 270468], [12672, 135308,
    528512, 20608, 12424, 147584, 143492, 266624, 16640, 4364, 143616, 397444, 274560, 12548, 4240, 135680, 4612, 397568, 16516, 4736, 4488, 135556, 266376, 266500,
    135432], [20484, 135556, 147460, 135184, 143492, 397320, 16392, 397444, 4612, 528388, 4488, 266252, 4364, 12300, 4240, 16516, 274436, 4116, 12548, 12424, 135308,
    143368, 266376, 266500, 135432], [8332, 135556, 135184, 147460, 20484, 401412, 4364, 8208, 135308, 397444, 4612, 12548, 274436, 528388, 139276, 143492, 16516, 8580,
    4116, 4240, 12300, 266252, 139524, 266500, 270468], [274436, 655364, 131340, 393228, 139276, 135556, 135184, 524420, 262284, 397444, 135308, 131092, 401412, 262532,
    266252, 262160, 528388, 131588, 393476, 147460, 131216, 143492, 139524, 266500, 270468], [393352, 393228, 135556, 135184, 524420, 393476, 131340, 143368, 524296,
    397444, 139276, 131092, 528388, 131588, 397320, 131216, 131464, 401412, 655364, 147460, 135308, 143492, 139400, 139524, 135432], [655488, 393352, 262532, 131712,
    135308, 131588, 524420, 393600, 397444, 401536, 262656, 135556, 528512, 266624, 131216, 135680, 262284, 274560, 131464, 147584, 139648, 143492, 266376, 270468,
    139400], [135308, 131340, 524420, 131712, 393600, 397568, 524544, 131464, 393352, 528512, 139648, 131216, 397444, 135680, 401536, 655488, 147584, 143616, 393476,
    135556, 143492, 131588, 139524, 135432, 139400], [266252, 405504, 135556, 659456, 135308, 147460, 397568, 143492, 147584, 274560, 143368, 397444, 151552, 278528,
    528512, 135680, 274436, 397320, 143616, 266624, 528388, 135184, 266376, 135432, 266500], [397320, 139648, 147584, 405504, 135556, 135308, 147460, 139276, 143616,
    135680, 151552, 401536, 528512, 397444, 143492, 401412, 397568, 528388, 659456, 143368, 135184, 532480, 139400, 139524, 135432], [8332, 12548, 12424, 135308, 4240,
    4364, 4488, 16516, 8580, 135556, 4612, 397444, 143492, 139400, 270468, 139524, 266376, 266500, 8456, 135432], [143492, 393476, 135308, 393352, 131588, 131464, 397444,
    262532, 135556, 524420, 131340, 262284, 131216, 270468, 266376, 266500, 139524, 135432, 139400, 262408], [528512, 274560, 266624, 397568, 401536, 139648, 135680,
    397444, 135308, 135556, 147584, 143616, 143492, 139524, 270592, 135432, 266376, 266500, 270468, 139400], [528388, 401412, 274436, 135308, 266252, 143368, 397444,
    135184, 147460, 135556, 139276, 397320, 143492, 139400, 270344, 266376, 135432, 266500, 270468, 139524]]
  | _, _, _, _ => []


/-- Barycentric coordinates of the node of a fine dof times 24. -/
def Table.num (t : Table) (k q J : Nat) : List Nat :=
  let c := (childN t.dim t.sub k).getD q []
  let n := (nodeN t.fine t.dim).getD J []
  (List.range (t.dim + 1)).map fun l => ((List.range (t.dim + 1)).map fun i => n.getD i 0 * (c.getD i []).getD l 0).sum

def Table.codeAt (t : Table) (k q J : Nat) : Nat := ((code t.dim t.sub t.fine k).getD q []).getD J 0

/-- Digits. -/
def digs (dim c : Nat) : List Nat := (List.range (dim + 1)).map fun l => c / 32 ^ l % 32

def Table.goodCode (t : Table) (k : Nat) : Bool :=
  (List.range t.sub).all fun q => (List.range (nodeN t.fine t.dim).length).all fun J => t.num k q J == digs t.dim (t.codeAt k q J) &&
    (codes t.dim t.sub t.fine k).any fun c => Nat.beq c (t.codeAt k q J)

def Table.goodPattern (t : Table) (k : Nat) : Bool :=
  t.patternOf k == (t.dataOf k).map fun g => (g.1, g.2.map fun e => (e.1, e.2.1))

def Table.goodData (t : Table) (k : Nat) : Bool :=
  (t.dataOf k).all fun g => Nat.blt g.1 (nodeN t.coarse t.dim).length && g.2.all fun e => Nat.blt e.1 t.sub && Nat.blt e.2.1 (nodeN t.fine t.dim).length &&
    decide (|(e.2.2 : ℚ) / 10 ^ t.digits - (t.shape g.1).eval ((digs t.dim (t.codeAt k e.1 e.2.1)).map fun n : Nat => (n : ℚ) / 24)| ≤ t.tol)

/-- Whether the shape function does not vanish, from the coordinates times 24. -/
def nonzero (n : List Nat) : Shape → Bool
  | .p0 => true
  | .p1 v => n.getD v 0 != 0
  | .p2v v => n.getD v 0 != 0 && n.getD v 0 != 12
  | .p2e v w => n.getD v 0 != 0 && n.getD w 0 != 0
  | .p3v v => n.getD v 0 != 0 && n.getD v 0 != 8 && n.getD v 0 != 16
  | .p3e v w => n.getD v 0 != 0 && n.getD w 0 != 0 && n.getD v 0 != 8
  | .p3f u v w => n.getD u 0 != 0 && n.getD v 0 != 0 && n.getD w 0 != 0

def Table.goodRows (t : Table) (k : Nat) : Bool :=
  rows t.dim t.coarse t.fine k == (List.range (localShapeFunctions t.coarse t.dim).length).map fun I =>
    ((t.dataOf k).filter fun g => Nat.beq g.1 I).flatMap fun g => g.2.map fun e => t.codeAt k e.1 e.2.1

def Table.complete (t : Table) (k : Nat) : Bool :=
  ((localShapeFunctions t.coarse t.dim).zip (rows t.dim t.coarse t.fine k)).all fun p => (codes t.dim t.sub t.fine k).all fun c =>
    !(nonzero (digs t.dim c) p.1) || p.2.any fun c' => Nat.beq c' c

theorem goodPattern : ∀ t ∈ tables, ∀ k ∈ List.range 3, t.goodPattern k = true := by decide +kernel
theorem goodCode : ∀ t ∈ tables, ∀ k ∈ List.range 3, t.goodCode k = true := by decide +kernel
theorem goodRows : ∀ t ∈ tables, ∀ k ∈ List.range 3, t.goodRows k = true := by decide +kernel
theorem complete : ∀ t ∈ tables, ∀ k ∈ List.range 3, t.complete k = true := by decide +kernel
theorem goodData : ∀ t ∈ tables, ∀ k ∈ List.range 3, t.goodData k = true := by decide +kernel
end PyNucleus.Restriction
