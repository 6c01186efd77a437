import Verif.Props.HardcodedMeshes

/-!
The hard-coded ball mesh (C69).
-/

namespace Conmech

open Spec

section C69

/-- The codes of the faces of the ball mesh, a certificate. -/
def ballFaces : List (ℕ × ℕ) := [
  (4368, 0), (272, 1), (80, 4), (68, 16), (137520, 32), (133424, 33), (133232, 36), (133220, 48),
  (87588, 20), (83492, 21), (83300, 24), (83288, 36), (37656, 8), (33560, 9), (33368, 12),
  (33356, 24), (170808, 40), (166712, 41), (166520, 44), (166508, 56), (75105, 17), (71009, 18),
  (70817, 21), (70805, 33), (25173, 5), (21077, 6), (20885, 9), (20873, 21), (158325, 37),
  (154229, 38), (154037, 41), (154025, 53), (108393, 25), (104297, 26), (104105, 29),
  (104093, 41), (12690, 2), (8594, 3), (8402, 6), (8390, 18), (145842, 34), (141746, 35),
  (141554, 38), (141542, 50), (95910, 22), (91814, 23), (91622, 26), (91610, 38), (45978, 10),
  (41882, 11), (41690, 14), (41678, 26), (179130, 42), (175034, 43), (174842, 46), (174830, 58),
  (16725, 1), (4373, 5), (4437, 4), (4357, 21), (149877, 33), (137525, 37), (137589, 36),
  (137509, 53), (99945, 21), (87593, 25), (87657, 24), (87577, 41), (50013, 9), (37661, 13),
  (37725, 12), (37645, 29), (183165, 41), (170813, 45), (170877, 44), (170797, 61), (87462, 18),
  (75110, 22), (75174, 21), (75094, 38), (37530, 6), (25178, 10), (25242, 9), (25162, 26),
  (170682, 38), (158330, 42), (158394, 41), (158314, 58), (120750, 26), (108398, 30),
  (108462, 29), (108382, 46), (25047, 3), (12695, 7), (12759, 6), (12679, 23), (158199, 35),
  (145847, 39), (145911, 38), (145831, 55), (108267, 23), (95915, 27), (95979, 26), (95899, 43),
  (58335, 11), (45983, 15), (46047, 14), (45967, 31), (191487, 43), (179135, 47), (179199, 46),
  (179119, 63), (17429, 1), (5141, 4), (4373, 16), (4368, 21), (150581, 33), (138293, 36),
  (137525, 48), (137520, 53), (100649, 21), (88361, 24), (87593, 36), (87588, 41), (50717, 9),
  (38429, 12), (37661, 24), (37656, 29), (183869, 41), (171581, 44), (170813, 56), (170808, 61),
  (88166, 18), (75878, 21), (75110, 33), (75105, 38), (38234, 6), (25946, 9), (25178, 21),
  (25173, 26), (171386, 38), (159098, 41), (158330, 53), (158325, 58), (121454, 26), (109166, 29),
  (108398, 41), (108393, 46), (25751, 3), (13463, 6), (12695, 18), (12690, 23), (158903, 35),
  (146615, 38), (145847, 50), (145842, 55), (108971, 23), (96683, 26), (95915, 38), (95910, 43),
  (59039, 11), (46751, 14), (45983, 26), (45978, 31), (192191, 43), (179903, 46), (179135, 58),
  (179130, 63), (66645, 1), (5205, 16), (5141, 17), (5137, 21), (199797, 33), (138357, 48),
  (138293, 49), (138289, 53), (149865, 21), (88425, 36), (88361, 37), (88357, 41), (99933, 9),
  (38493, 24), (38429, 25), (38425, 29), (233085, 41), (171645, 56), (171581, 57), (171577, 61),
  (137382, 18), (75942, 33), (75878, 34), (75874, 38), (87450, 6), (26010, 21), (25946, 22),
  (25942, 26), (220602, 38), (159162, 53), (159098, 54), (159094, 58), (170670, 26), (109230, 41),
  (109166, 42), (109162, 46), (74967, 3), (13527, 18), (13463, 19), (13459, 23), (208119, 35),
  (146679, 50), (146615, 51), (146611, 55), (158187, 23), (96747, 38), (96683, 39), (96679, 43),
  (108255, 11), (46815, 26), (46751, 27), (46747, 31), (241407, 43), (179967, 58), (179903, 59),
  (179899, 63), (66837, 4), (17685, 16), (17428, 21), (17429, 20), (199989, 36), (150837, 48),
  (150580, 53), (150581, 52), (150057, 24), (100905, 36), (100648, 41), (100649, 40),
  (100125, 12), (50973, 24), (50716, 29), (50717, 28), (233277, 44), (184125, 56), (183868, 61),
  (183869, 60), (137574, 21), (88422, 33), (88165, 38), (88166, 37), (87642, 9), (38490, 21),
  (38233, 26), (38234, 25), (220794, 41), (171642, 53), (171385, 58), (171386, 57), (170862, 29),
  (121710, 41), (121453, 46), (121454, 45), (75159, 6), (26007, 18), (25750, 23), (25751, 22),
  (208311, 38), (159159, 50), (158902, 55), (158903, 54), (158379, 26), (109227, 38),
  (108970, 43), (108971, 42), (108447, 14), (59295, 26), (59038, 31), (59039, 30), (241599, 46),
  (192447, 58), (192190, 63), (192191, 62), (67684, 32), (67620, 33), (133220, 16), (67617, 36),
  (17752, 20), (17688, 21), (83288, 4), (17685, 24), (150904, 52), (150840, 53), (216440, 36),
  (150837, 56), (100972, 40), (100908, 41), (166508, 24), (100905, 44), (5269, 17), (5205, 18),
  (70805, 1), (5202, 21), (138421, 49), (138357, 50), (203957, 33), (138354, 53), (88489, 37),
  (88425, 38), (154025, 21), (88422, 41), (38557, 25), (38493, 26), (104093, 9), (38490, 29),
  (171709, 57), (171645, 58), (237245, 41), (171642, 61), (76006, 34), (75942, 35), (141542, 18),
  (75939, 38), (26074, 22), (26010, 23), (91610, 6), (26007, 26), (159226, 54), (159162, 55),
  (224762, 38), (159159, 58), (109294, 42), (109230, 43), (174830, 26), (109227, 46), (88357, 33),
  (88164, 37), (137509, 21), (88165, 36), (38425, 21), (38232, 25), (87577, 9), (38233, 24),
  (171577, 53), (171384, 57), (220729, 41), (171385, 56), (121645, 41), (121452, 45),
  (170797, 29), (121453, 44), (25942, 18), (25749, 22), (75094, 6), (25750, 21), (159094, 50),
  (158901, 54), (208246, 38), (158902, 53), (109162, 38), (108969, 42), (158314, 26),
  (108970, 41), (59230, 26), (59037, 30), (108382, 14), (59038, 29), (192382, 58), (192189, 62),
  (241534, 46), (192190, 61), (96679, 35), (96486, 39), (145831, 23), (96487, 38), (46747, 23),
  (46554, 27), (95899, 11), (46555, 26), (179899, 55), (179706, 59), (229051, 43), (179707, 58),
  (129967, 43), (129774, 47), (179119, 31), (129775, 46), (66916, 33), (66913, 36), (67684, 21),
  (88164, 16), (16984, 21), (16981, 24), (17752, 9), (38232, 4), (150136, 53), (150133, 56),
  (150904, 41), (171384, 36), (100204, 41), (100201, 44), (100972, 29), (121452, 24), (4501, 18),
  (4498, 21), (5269, 6), (25749, 1), (137653, 50), (137650, 53), (138421, 38), (158901, 33),
  (87721, 38), (87718, 41), (88489, 26), (108969, 21), (37789, 26), (37786, 29), (38557, 14),
  (59037, 9), (170941, 58), (170938, 61), (171709, 46), (192189, 41), (75238, 35), (75235, 38),
  (76006, 23), (96486, 18), (25306, 23), (25303, 26), (26074, 11), (46554, 6), (158458, 55),
  (158455, 58), (159226, 43), (179706, 38), (108526, 43), (108523, 46), (109294, 31),
  (129774, 26), (66645, 33), (71009, 16), (66657, 21), (66913, 17), (16713, 21), (21077, 4),
  (16725, 9), (16981, 5), (149865, 53), (154229, 36), (149877, 41), (150133, 37), (99933, 41),
  (104297, 24), (99945, 29), (100201, 25), (4230, 18), (8594, 1), (4242, 6), (4498, 2),
  (137382, 50), (141746, 33), (137394, 38), (137650, 34), (87450, 38), (91814, 21), (87462, 26),
  (87718, 22), (37518, 26), (41882, 9), (37530, 14), (37786, 10), (170670, 58), (175034, 41),
  (170682, 46), (170938, 42), (74967, 35), (79331, 18), (74979, 23), (75235, 19), (25035, 23),
  (29399, 6), (25047, 11), (25303, 7), (158187, 55), (162551, 38), (158199, 43), (158455, 39),
  (108255, 43), (112619, 26), (108267, 31), (108523, 27), (66837, 36), (83300, 16), (66916, 20),
  (66852, 21), (16905, 24), (33368, 4), (16984, 8), (16920, 9), (150057, 56), (166520, 36),
  (150136, 40), (150072, 41), (100125, 44), (116588, 24), (100204, 28), (100140, 29), (4422, 21),
  (20885, 1), (4501, 5), (4437, 6), (137574, 53), (154037, 33), (137653, 37), (137589, 38),
  (87642, 41), (104105, 21), (87721, 25), (87657, 26), (37710, 29), (54173, 9), (37789, 13),
  (37725, 14), (170862, 61), (187325, 41), (170941, 45), (170877, 46), (75159, 38), (91622, 18),
  (75238, 22), (75174, 23), (25227, 26), (41690, 6), (25306, 10), (25242, 11), (158379, 58),
  (174842, 38), (158458, 42), (158394, 43), (108447, 46), (124910, 26), (108526, 30), (108462, 31)]

theorem ballFaces_eq : allFaces ballElements = ballFaces.map fun f => (decodeFace f.1, f.2) := by
  decide +kernel

/-- C69: the tetrahedra of the ball are positively oriented, a face belongs to one or two of them, and
neighbours are on different sides of their common face. -/
theorem C69_conforming : Conforming ballNodes ballElements :=
  conforming_of_check ballFaces_eq (by decide +kernel)

/-- The squared distance of a node to the origin. -/
def radiusSq (p : ℚ × ℚ × ℚ) : ℚ := p.1 * p.1 + p.2.1 * p.2.1 + p.2.2 * p.2.2

/-- C69: the corners of the faces that belong to one tetrahedron lie on the sphere of squared radius
1/3, up to the rounding of the table. -/
theorem C69_boundary : ∀ f ∈ allFaces ballElements, OuterFace ballElements f.1 →
    ∀ i ∈ [f.1.1, f.1.2.1, f.1.2.2],
      |radiusSq (ballNodes.getD i 0) - 1 / 3| < 1 / 100000000 :=
  boundary_of_check ballFaces_eq
    (P := fun f => ∀ i ∈ [f.1, f.2.1, f.2.2],
      |radiusSq (ballNodes.getD i 0) - 1 / 3| < 1 / 100000000) (by decide +kernel)

/-- C69: no node is outside of the sphere. -/
theorem C69_nodes : ∀ p ∈ ballNodes, radiusSq p < 1 / 3 + 1 / 100000000 := by
  decide +kernel

/-- C69: the volumes add up to a bit less than the volume 0.806 of the ball. -/
theorem C69_volume :
    0.7 < (ballElements.map fun e => (corners ballNodes e).det / 6).sum ∧
      (ballElements.map fun e => (corners ballNodes e).det / 6).sum < 0.8 := by
  decide +kernel

/-- A face on the boundary and a face inside. -/
example : OuterFace ballElements (0, 1, 4) ∧ ¬ OuterFace ballElements (1, 4, 16) := by
  unfold OuterFace
  decide +kernel

end C69

end Conmech
