import Mathlib.Algebra.Order.Ring.Rat
/-
The meshes that are written down in the project: `conmech/mesh/zoo/cube.py` and
`conmech/mesh/zoo/ball.py`. The decimal numbers are exact here.
-/
namespace Conmech

/-- The nodes, `conmech/mesh/zoo/cube.py:27-57`. -/
def cubeNodes : List (ℚ × ℚ × ℚ) := [
  (0, 0, 0), (1 / 2, 0, 0), (1, 0, 0), (0, 1 / 2, 0), (1 / 2, 1 / 2, 0), (1, 1 / 2, 0), (0, 1, 0),
  (1 / 2, 1, 0), (1, 1, 0), (0, 0, 1 / 2), (1 / 2, 0, 1 / 2), (1, 0, 1 / 2), (0, 1 / 2, 1 / 2),
  (1 / 2, 1 / 2, 1 / 2), (1, 1 / 2, 1 / 2), (0, 1, 1 / 2), (1 / 2, 1, 1 / 2), (1, 1, 1 / 2),
  (0, 0, 1), (1 / 2, 0, 1), (1, 0, 1), (0, 1 / 2, 1), (1 / 2, 1 / 2, 1), (1, 1 / 2, 1), (0, 1, 1),
  (1 / 2, 1, 1), (1, 1, 1)]

/-- The elements, `conmech/mesh/zoo/cube.py:59-102`. -/
def cubeElements : List (ℕ × ℕ × ℕ × ℕ) := [
  (0, 1, 3, 9), (12, 13, 15, 21), (10, 11, 13, 19), (4, 5, 7, 13), (1, 4, 3, 13),
  (13, 16, 15, 25), (11, 14, 13, 23), (5, 8, 7, 17), (1, 3, 9, 13), (13, 15, 21, 25),
  (11, 13, 19, 23), (5, 7, 13, 17), (1, 9, 10, 13), (13, 21, 22, 25), (11, 19, 20, 23),
  (5, 13, 14, 17), (3, 9, 13, 12), (15, 21, 25, 24), (13, 19, 23, 22), (7, 13, 17, 16),
  (18, 19, 9, 21), (12, 13, 3, 15), (10, 11, 1, 13), (22, 23, 13, 25), (19, 22, 13, 21),
  (13, 16, 7, 15), (11, 14, 5, 13), (23, 26, 17, 25), (19, 21, 13, 9), (13, 15, 7, 3),
  (11, 13, 5, 1), (23, 25, 17, 13), (19, 9, 13, 10), (13, 3, 7, 4), (11, 1, 5, 2),
  (23, 13, 17, 14), (21, 9, 12, 13), (15, 3, 6, 7), (13, 1, 4, 5), (25, 13, 16, 17)]

/-- The nodes in units of 1/100000000, `conmech/mesh/zoo/ball.py:27-94`. -/
def ballUnits : List (ℤ × ℤ × ℤ) := [
  (-33333333, -33333333, -33333333), (-13245324, -39735971, -39735971),
  (13245324, -39735971, -39735971), (33333333, -33333333, -33333333),
  (-39735971, -13245324, -39735971), (-17407766, -17407766, -52223297),
  (17407766, -17407766, -52223297), (39735971, -13245324, -39735971),
  (-39735971, 13245324, -39735971), (-17407766, 17407766, -52223297),
  (17407766, 17407766, -52223297), (39735971, 13245324, -39735971),
  (-33333333, 33333333, -33333333), (-13245324, 39735971, -39735971),
  (13245324, 39735971, -39735971), (33333333, 33333333, -33333333),
  (-39735971, -39735971, -13245324), (-17407766, -52223297, -17407766),
  (17407766, -52223297, -17407766), (39735971, -39735971, -13245324),
  (-52223297, -17407766, -17407766), (-11111111, -11111111, -11111111),
  (11111111, -11111111, -11111111), (52223297, -17407766, -17407766),
  (-52223297, 17407766, -17407766), (-11111111, 11111111, -11111111),
  (11111111, 11111111, -11111111), (52223297, 17407766, -17407766),
  (-39735971, 39735971, -13245324), (-17407766, 52223297, -17407766),
  (17407766, 52223297, -17407766), (39735971, 39735971, -13245324),
  (-39735971, -39735971, 13245324), (-17407766, -52223297, 17407766),
  (17407766, -52223297, 17407766), (39735971, -39735971, 13245324),
  (-52223297, -17407766, 17407766), (-11111111, -11111111, 11111111),
  (11111111, -11111111, 11111111), (52223297, -17407766, 17407766),
  (-52223297, 17407766, 17407766), (-11111111, 11111111, 11111111),
  (11111111, 11111111, 11111111), (52223297, 17407766, 17407766), (-39735971, 39735971, 13245324),
  (-17407766, 52223297, 17407766), (17407766, 52223297, 17407766), (39735971, 39735971, 13245324),
  (-33333333, -33333333, 33333333), (-13245324, -39735971, 39735971),
  (13245324, -39735971, 39735971), (33333333, -33333333, 33333333),
  (-39735971, -13245324, 39735971), (-17407766, -17407766, 52223297),
  (17407766, -17407766, 52223297), (39735971, -13245324, 39735971),
  (-39735971, 13245324, 39735971), (-17407766, 17407766, 52223297),
  (17407766, 17407766, 52223297), (39735971, 13245324, 39735971), (-33333333, 33333333, 33333333),
  (-13245324, 39735971, 39735971), (13245324, 39735971, 39735971), (33333333, 33333333, 33333333)]

/-- The nodes, `conmech/mesh/zoo/ball.py:27-94`. -/
def ballNodes : List (ℚ × ℚ × ℚ) :=
  ballUnits.map fun n => (n.1 / 100000000, n.2.1 / 100000000, n.2.2 / 100000000)

/-- The elements, `conmech/mesh/zoo/ball.py:95-233`. -/
def ballElements : List (ℕ × ℕ × ℕ × ℕ) := [
  (0, 1, 4, 16), (32, 33, 36, 48), (20, 21, 24, 36), (8, 9, 12, 24), (40, 41, 44, 56),
  (17, 18, 21, 33), (5, 6, 9, 21), (37, 38, 41, 53), (25, 26, 29, 41), (2, 3, 6, 18),
  (34, 35, 38, 50), (22, 23, 26, 38), (10, 11, 14, 26), (42, 43, 46, 58), (1, 5, 4, 21),
  (33, 37, 36, 53), (21, 25, 24, 41), (9, 13, 12, 29), (41, 45, 44, 61), (18, 22, 21, 38),
  (6, 10, 9, 26), (38, 42, 41, 58), (26, 30, 29, 46), (3, 7, 6, 23), (35, 39, 38, 55),
  (23, 27, 26, 43), (11, 15, 14, 31), (43, 47, 46, 63), (1, 4, 16, 21), (33, 36, 48, 53),
  (21, 24, 36, 41), (9, 12, 24, 29), (41, 44, 56, 61), (18, 21, 33, 38), (6, 9, 21, 26),
  (38, 41, 53, 58), (26, 29, 41, 46), (3, 6, 18, 23), (35, 38, 50, 55), (23, 26, 38, 43),
  (11, 14, 26, 31), (43, 46, 58, 63), (1, 16, 17, 21), (33, 48, 49, 53), (21, 36, 37, 41),
  (9, 24, 25, 29), (41, 56, 57, 61), (18, 33, 34, 38), (6, 21, 22, 26), (38, 53, 54, 58),
  (26, 41, 42, 46), (3, 18, 19, 23), (35, 50, 51, 55), (23, 38, 39, 43), (11, 26, 27, 31),
  (43, 58, 59, 63), (4, 16, 21, 20), (36, 48, 53, 52), (24, 36, 41, 40), (12, 24, 29, 28),
  (44, 56, 61, 60), (21, 33, 38, 37), (9, 21, 26, 25), (41, 53, 58, 57), (29, 41, 46, 45),
  (6, 18, 23, 22), (38, 50, 55, 54), (26, 38, 43, 42), (14, 26, 31, 30), (46, 58, 63, 62),
  (32, 33, 16, 36), (20, 21, 4, 24), (52, 53, 36, 56), (40, 41, 24, 44), (17, 18, 1, 21),
  (49, 50, 33, 53), (37, 38, 21, 41), (25, 26, 9, 29), (57, 58, 41, 61), (34, 35, 18, 38),
  (22, 23, 6, 26), (54, 55, 38, 58), (42, 43, 26, 46), (33, 37, 21, 36), (21, 25, 9, 24),
  (53, 57, 41, 56), (41, 45, 29, 44), (18, 22, 6, 21), (50, 54, 38, 53), (38, 42, 26, 41),
  (26, 30, 14, 29), (58, 62, 46, 61), (35, 39, 23, 38), (23, 27, 11, 26), (55, 59, 43, 58),
  (43, 47, 31, 46), (33, 36, 21, 16), (21, 24, 9, 4), (53, 56, 41, 36), (41, 44, 29, 24),
  (18, 21, 6, 1), (50, 53, 38, 33), (38, 41, 26, 21), (26, 29, 14, 9), (58, 61, 46, 41),
  (35, 38, 23, 18), (23, 26, 11, 6), (55, 58, 43, 38), (43, 46, 31, 26), (33, 16, 21, 17),
  (21, 4, 9, 5), (53, 36, 41, 37), (41, 24, 29, 25), (18, 1, 6, 2), (50, 33, 38, 34),
  (38, 21, 26, 22), (26, 9, 14, 10), (58, 41, 46, 42), (35, 18, 23, 19), (23, 6, 11, 7),
  (55, 38, 43, 39), (43, 26, 31, 27), (36, 16, 20, 21), (24, 4, 8, 9), (56, 36, 40, 41),
  (44, 24, 28, 29), (21, 1, 5, 6), (53, 33, 37, 38), (41, 21, 25, 26), (29, 9, 13, 14),
  (61, 41, 45, 46), (38, 18, 22, 23), (26, 6, 10, 11), (58, 38, 42, 43), (46, 26, 30, 31)]

end Conmech
