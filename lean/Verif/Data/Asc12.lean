import Verif.Model.Ciphertext

/-!
# The shipped chain table `/repo/assets/asc-12.yaml`

Generated by `tools/gen_asc.py`; one entry per key of the file, in file order.
-/

namespace Parm
namespace Asc12

private abbrev T := true
private abbrev F := false

/-- an element of a chain, in the field order of the file -/
def e (lPos : Bool) (lIdx : Nat) (rPos : Bool) (rIdx rShift : Nat) : AddShift :=
  ⟨lPos, lIdx, rPos, rIdx, rShift⟩

/-- `/repo/assets/asc-12.yaml`, entries 0–63 -/
def part0 : List (Nat × Asc) := [
  (1, []),
  (3, [e T 0 T 0 1]),
  (5, [e T 0 T 0 2]),
  (7, [e F 0 T 0 3]),
  (9, [e T 0 T 0 3]),
  (11, [e T 0 T 0 1, e F 0 T 1 2]),
  (13, [e T 0 T 0 1, e T 0 T 1 2]),
  (15, [e F 0 T 0 4]),
  (17, [e T 0 T 0 4]),
  (19, [e T 0 T 0 2, e F 0 T 1 2]),
  (21, [e T 0 T 0 2, e T 0 T 1 2]),
  (23, [e T 0 T 0 1, e F 0 T 1 3]),
  (25, [e T 0 T 0 1, e T 0 T 1 3]),
  (27, [e F 0 T 0 3, e F 0 T 1 2]),
  (29, [e F 0 T 0 3, e T 0 T 1 2]),
  (31, [e F 0 T 0 5]),
  (33, [e T 0 T 0 5]),
  (35, [e T 0 T 0 3, e F 0 T 1 2]),
  (37, [e T 0 T 0 3, e T 0 T 1 2]),
  (39, [e T 0 T 0 2, e F 0 T 1 3]),
  (41, [e T 0 T 0 2, e T 0 T 1 3]),
  (43, [e T 0 T 0 1, e F 0 T 1 2, e F 0 T 2 2]),
  (45, [e T 0 T 0 1, e F 1 T 1 4]),
  (47, [e T 0 T 0 1, e F 0 T 1 4]),
  (49, [e T 0 T 0 1, e T 0 T 1 4]),
  (51, [e T 0 T 0 1, e T 1 T 1 4]),
  (53, [e T 0 T 0 1, e T 0 T 1 2, e T 0 T 2 2]),
  (55, [e F 0 T 0 3, e F 0 T 1 3]),
  (57, [e F 0 T 0 3, e T 0 T 1 3]),
  (59, [e F 0 T 0 4, e F 0 T 1 2]),
  (61, [e F 0 T 0 4, e T 0 T 1 2]),
  (63, [e F 0 T 0 6]),
  (65, [e T 0 T 0 6]),
  (67, [e T 0 T 0 4, e F 0 T 1 2]),
  (69, [e T 0 T 0 4, e T 0 T 1 2]),
  (71, [e T 0 T 0 3, e F 0 T 1 3]),
  (73, [e T 0 T 0 3, e T 0 T 1 3]),
  (75, [e T 0 T 0 2, e F 1 T 1 4]),
  (77, [e T 0 T 0 2, e F 0 T 1 2, e T 0 T 2 2]),
  (79, [e T 0 T 0 2, e F 0 T 1 4]),
  (81, [e T 0 T 0 2, e T 0 T 1 4]),
  (83, [e T 0 T 0 2, e T 0 T 1 2, e F 0 T 2 2]),
  (85, [e T 0 T 0 2, e T 1 T 1 4]),
  (87, [e T 0 T 0 1, e F 0 T 1 2, e F 0 T 2 3]),
  (89, [e T 0 T 0 1, e F 0 T 1 2, e T 0 T 2 3]),
  (91, [e T 0 T 0 1, e F 0 T 1 3, e F 0 T 2 2]),
  (93, [e T 0 T 0 1, e F 1 T 1 5]),
  (95, [e T 0 T 0 1, e F 0 T 1 5]),
  (97, [e T 0 T 0 1, e T 0 T 1 5]),
  (99, [e T 0 T 0 1, e T 1 T 1 5]),
  (101, [e T 0 T 0 1, e T 0 T 1 3, e T 0 T 2 2]),
  (103, [e T 0 T 0 1, e T 0 T 1 2, e F 0 T 2 3]),
  (105, [e F 0 T 0 3, e F 1 T 1 4]),
  (107, [e F 0 T 0 3, e F 0 T 1 2, e F 0 T 2 2]),
  (109, [e F 0 T 0 3, e F 0 T 1 2, e T 0 T 2 2]),
  (111, [e F 0 T 0 3, e F 0 T 1 4]),
  (113, [e F 0 T 0 3, e T 0 T 1 4]),
  (115, [e F 0 T 0 3, e T 0 T 1 2, e F 0 T 2 2]),
  (117, [e F 0 T 0 3, e T 0 T 1 2, e T 0 T 2 2]),
  (119, [e F 0 T 0 4, e F 0 T 1 3]),
  (121, [e F 0 T 0 4, e T 0 T 1 3]),
  (123, [e F 0 T 0 5, e F 0 T 1 2]),
  (125, [e F 0 T 0 5, e T 0 T 1 2]),
  (127, [e F 0 T 0 7])]

/-- `/repo/assets/asc-12.yaml`, entries 64–127 -/
def part1 : List (Nat × Asc) := [
  (129, [e T 0 T 0 7]),
  (131, [e T 0 T 0 5, e F 0 T 1 2]),
  (133, [e T 0 T 0 5, e T 0 T 1 2]),
  (135, [e T 0 T 0 4, e F 0 T 1 3]),
  (137, [e T 0 T 0 4, e T 0 T 1 3]),
  (139, [e T 0 T 0 3, e F 0 T 1 2, e F 0 T 2 2]),
  (141, [e T 0 T 0 3, e F 0 T 1 2, e T 0 T 2 2]),
  (143, [e T 0 T 0 3, e F 0 T 1 4]),
  (145, [e T 0 T 0 3, e T 0 T 1 4]),
  (147, [e T 0 T 0 3, e T 0 T 1 2, e F 0 T 2 2]),
  (149, [e T 0 T 0 3, e T 0 T 1 2, e T 0 T 2 2]),
  (151, [e T 0 T 0 2, e F 0 T 1 2, e F 0 T 2 3]),
  (153, [e T 0 T 0 3, e T 1 T 1 4]),
  (155, [e T 0 T 0 2, e F 1 T 1 5]),
  (157, [e T 0 T 0 2, e F 0 T 1 3, e T 0 T 2 2]),
  (159, [e T 0 T 0 2, e F 0 T 1 5]),
  (161, [e T 0 T 0 2, e T 0 T 1 5]),
  (163, [e T 0 T 0 2, e T 0 T 1 3, e F 0 T 2 2]),
  (165, [e T 0 T 0 2, e T 1 T 1 5]),
  (167, [e T 0 T 0 2, e T 0 T 1 2, e F 0 T 2 3]),
  (169, [e T 0 T 0 2, e T 0 T 1 2, e T 0 T 2 3]),
  (171, [e T 0 T 0 2, e T 1 T 1 4, e T 0 T 2 1]),
  (173, [e T 0 T 0 1, e F 0 T 1 2, e F 1 T 2 4]),
  (175, [e T 0 T 0 1, e F 0 T 1 2, e F 0 T 2 4]),
  (177, [e T 0 T 0 1, e F 0 T 1 2, e T 0 T 2 4]),
  (179, [e T 0 T 0 1, e F 1 T 1 4, e F 0 T 2 2]),
  (181, [e T 0 T 0 1, e F 1 T 1 4, e T 0 T 2 2]),
  (183, [e T 0 T 0 1, e F 0 T 1 3, e F 0 T 2 3]),
  (185, [e T 0 T 0 1, e F 0 T 1 3, e T 0 T 2 3]),
  (187, [e T 0 T 0 1, e F 0 T 1 4, e F 0 T 2 2]),
  (189, [e T 0 T 0 1, e F 1 T 1 6]),
  (191, [e T 0 T 0 1, e F 0 T 1 6]),
  (193, [e T 0 T 0 1, e T 0 T 1 6]),
  (195, [e T 0 T 0 1, e T 1 T 1 6]),
  (197, [e T 0 T 0 1, e T 0 T 1 4, e T 0 T 2 2]),
  (199, [e T 0 T 0 1, e T 0 T 1 3, e F 0 T 2 3]),
  (201, [e T 0 T 0 1, e T 0 T 1 3, e T 0 T 2 3]),
  (203, [e T 0 T 0 1, e T 1 T 1 4, e F 0 T 2 2]),
  (205, [e T 0 T 0 1, e T 1 T 1 4, e T 0 T 2 2]),
  (207, [e T 0 T 0 1, e T 0 T 1 2, e F 0 T 2 4]),
  (209, [e T 0 T 0 1, e T 0 T 1 2, e T 0 T 2 4]),
  (211, [e F 0 T 0 3, e F 1 T 1 4, e T 0 T 2 1]),
  (213, [e T 0 T 0 1, e T 1 T 1 3, e F 1 T 2 3]),
  (215, [e F 0 T 0 3, e F 0 T 1 2, e F 0 T 2 3]),
  (217, [e F 0 T 0 3, e F 1 T 1 5]),
  (219, [e F 0 T 0 3, e F 0 T 1 3, e F 0 T 2 2]),
  (221, [e F 0 T 0 3, e F 0 T 1 3, e T 0 T 2 2]),
  (223, [e F 0 T 0 3, e F 0 T 1 5]),
  (225, [e F 0 T 0 3, e T 0 T 1 5]),
  (227, [e F 0 T 0 3, e T 0 T 1 3, e F 0 T 2 2]),
  (229, [e F 0 T 0 3, e T 0 T 1 3, e T 0 T 2 2]),
  (231, [e F 0 T 0 3, e T 1 T 1 5]),
  (233, [e F 0 T 0 3, e T 0 T 1 2, e T 0 T 2 3]),
  (235, [e F 0 T 0 4, e F 0 T 1 2, e F 0 T 2 2]),
  (237, [e F 0 T 0 4, e F 0 T 1 2, e T 0 T 2 2]),
  (239, [e F 0 T 0 4, e F 0 T 1 4]),
  (241, [e F 0 T 0 4, e T 0 T 1 4]),
  (243, [e F 0 T 0 4, e T 0 T 1 2, e F 0 T 2 2]),
  (245, [e F 0 T 0 4, e T 0 T 1 2, e T 0 T 2 2]),
  (247, [e F 0 T 0 5, e F 0 T 1 3]),
  (249, [e F 0 T 0 5, e T 0 T 1 3]),
  (251, [e F 0 T 0 6, e F 0 T 1 2]),
  (253, [e F 0 T 0 6, e T 0 T 1 2]),
  (255, [e F 0 T 0 8])]

/-- `/repo/assets/asc-12.yaml`, entries 128–191 -/
def part2 : List (Nat × Asc) := [
  (257, [e T 0 T 0 8]),
  (259, [e T 0 T 0 6, e F 0 T 1 2]),
  (261, [e T 0 T 0 6, e T 0 T 1 2]),
  (263, [e T 0 T 0 5, e F 0 T 1 3]),
  (265, [e T 0 T 0 5, e T 0 T 1 3]),
  (267, [e T 0 T 0 4, e F 0 T 1 2, e F 0 T 2 2]),
  (269, [e T 0 T 0 4, e F 0 T 1 2, e T 0 T 2 2]),
  (271, [e T 0 T 0 4, e F 0 T 1 4]),
  (273, [e T 0 T 0 4, e T 0 T 1 4]),
  (275, [e T 0 T 0 4, e T 0 T 1 2, e F 0 T 2 2]),
  (277, [e T 0 T 0 4, e T 0 T 1 2, e T 0 T 2 2]),
  (279, [e T 0 T 0 3, e F 1 T 1 5]),
  (281, [e T 0 T 0 3, e F 0 T 1 2, e T 0 T 2 3]),
  (283, [e T 0 T 0 3, e F 0 T 1 3, e F 0 T 2 2]),
  (285, [e T 0 T 0 3, e F 0 T 1 3, e T 0 T 2 2]),
  (287, [e T 0 T 0 3, e F 0 T 1 5]),
  (289, [e T 0 T 0 3, e T 0 T 1 5]),
  (291, [e T 0 T 0 3, e T 0 T 1 3, e F 0 T 2 2]),
  (293, [e T 0 T 0 3, e T 0 T 1 3, e T 0 T 2 2]),
  (295, [e T 0 T 0 3, e T 0 T 1 2, e F 0 T 2 3]),
  (297, [e T 0 T 0 3, e T 1 T 1 5]),
  (299, [e T 0 T 0 2, e F 1 T 1 4, e F 0 T 2 2]),
  (301, [e T 0 T 0 2, e F 1 T 1 4, e T 0 T 2 2]),
  (303, [e T 0 T 0 2, e F 0 T 1 2, e F 0 T 2 4]),
  (305, [e T 0 T 0 2, e F 0 T 1 2, e T 0 T 2 4]),
  (307, [e T 0 T 0 3, e T 1 T 1 4, e T 0 T 2 1]),
  (309, [e T 0 T 0 2, e F 1 T 1 5, e F 0 T 2 1]),
  (311, [e T 0 T 0 2, e F 0 T 1 3, e F 0 T 2 3]),
  (313, [e T 0 T 0 2, e F 0 T 1 3, e T 0 T 2 3]),
  (315, [e T 0 T 0 2, e F 1 T 1 6]),
  (317, [e T 0 T 0 2, e F 0 T 1 4, e T 0 T 2 2]),
  (319, [e T 0 T 0 2, e F 0 T 1 6]),
  (321, [e T 0 T 0 2, e T 0 T 1 6]),
  (323, [e T 0 T 0 2, e T 0 T 1 4, e F 0 T 2 2]),
  (325, [e T 0 T 0 2, e T 1 T 1 6]),
  (327, [e T 0 T 0 2, e T 0 T 1 3, e F 0 T 2 3]),
  (329, [e T 0 T 0 2, e T 0 T 1 3, e T 0 T 2 3]),
  (331, [e T 0 T 0 2, e T 1 T 1 5, e T 0 T 2 1]),
  (333, [e T 0 T 0 1, e F 1 T 1 3, e F 1 T 2 4]),
  (335, [e T 0 T 0 2, e T 0 T 1 2, e F 0 T 2 4]),
  (337, [e T 0 T 0 2, e T 0 T 1 2, e T 0 T 2 4]),
  (339, [e T 0 T 0 2, e T 1 T 1 4, e F 0 T 2 2]),
  (341, [e T 0 T 0 2, e T 1 T 1 4, e T 0 T 2 2]),
  (343, [e T 0 T 0 3, e T 1 T 0 1, e F 1 T 2 5]),
  (345, [e T 0 T 0 2, e T 1 T 1 4, e T 1 T 2 2]),
  (347, [e T 0 T 0 2, e T 0 T 1 1, e F 1 T 2 5]),
  (349, [e T 0 T 0 1, e F 0 T 1 2, e F 1 T 2 5]),
  (351, [e T 0 T 0 1, e F 0 T 1 2, e F 0 T 2 5]),
  (353, [e T 0 T 0 1, e F 0 T 1 2, e T 0 T 2 5]),
  (355, [e T 0 T 0 1, e F 0 T 1 2, e T 1 T 2 5]),
  (357, [e T 0 T 0 1, e F 1 T 1 4, e F 1 T 2 3]),
  (359, [e T 0 T 0 1, e F 1 T 1 4, e F 0 T 2 3]),
  (361, [e T 0 T 0 1, e F 1 T 1 4, e T 0 T 2 3]),
  (363, [e T 0 T 0 1, e F 1 T 1 4, e T 1 T 2 3]),
  (365, [e T 0 T 0 1, e F 0 T 1 3, e F 1 T 2 4]),
  (367, [e T 0 T 0 1, e F 0 T 1 3, e F 0 T 2 4]),
  (369, [e T 0 T 0 1, e F 0 T 1 3, e T 0 T 2 4]),
  (371, [e T 0 T 0 1, e F 1 T 1 5, e F 0 T 2 2]),
  (373, [e T 0 T 0 1, e F 1 T 1 5, e T 0 T 2 2]),
  (375, [e T 0 T 0 1, e F 0 T 1 4, e F 0 T 2 3]),
  (377, [e T 0 T 0 1, e F 0 T 1 4, e T 0 T 2 3]),
  (379, [e T 0 T 0 1, e F 0 T 1 5, e F 0 T 2 2]),
  (381, [e T 0 T 0 1, e F 1 T 1 7]),
  (383, [e T 0 T 0 1, e F 0 T 1 7])]

/-- `/repo/assets/asc-12.yaml`, entries 192–255 -/
def part3 : List (Nat × Asc) := [
  (385, [e T 0 T 0 1, e T 0 T 1 7]),
  (387, [e T 0 T 0 1, e T 1 T 1 7]),
  (389, [e T 0 T 0 1, e T 0 T 1 5, e T 0 T 2 2]),
  (391, [e T 0 T 0 1, e T 0 T 1 4, e F 0 T 2 3]),
  (393, [e T 0 T 0 1, e T 0 T 1 4, e T 0 T 2 3]),
  (395, [e T 0 T 0 1, e T 1 T 1 5, e F 0 T 2 2]),
  (397, [e T 0 T 0 1, e T 1 T 1 5, e T 0 T 2 2]),
  (399, [e T 0 T 0 1, e T 0 T 1 3, e F 0 T 2 4]),
  (401, [e T 0 T 0 1, e T 0 T 1 3, e T 0 T 2 4]),
  (403, [e T 0 T 0 1, e T 0 T 1 3, e T 1 T 2 4]),
  (405, [e T 0 T 0 1, e T 1 T 1 4, e F 1 T 2 3]),
  (407, [e T 0 T 0 1, e T 1 T 1 4, e F 0 T 2 3]),
  (409, [e T 0 T 0 1, e T 1 T 1 4, e T 0 T 2 3]),
  (411, [e T 0 T 0 1, e T 1 T 1 4, e T 1 T 2 3]),
  (413, [e T 0 T 0 1, e T 0 T 1 2, e F 1 T 2 5]),
  (415, [e T 0 T 0 1, e T 0 T 1 2, e F 0 T 2 5]),
  (417, [e T 0 T 0 1, e T 0 T 1 2, e T 0 T 2 5]),
  (419, [e F 0 T 0 3, e F 1 T 1 4, e F 0 T 2 2]),
  (421, [e F 0 T 0 3, e F 1 T 1 4, e T 0 T 2 2]),
  (423, [e T 0 T 0 3, e T 1 T 1 1, e F 1 T 2 4]),
  (425, [e T 0 T 0 3, e T 1 T 0 2, e T 1 T 2 5]),
  (427, [e T 0 T 0 2, e F 1 T 0 5, e F 1 T 2 4]),
  (429, [e T 0 T 0 1, e T 1 T 1 3, e F 1 T 2 4]),
  (431, [e F 0 T 0 3, e F 0 T 1 2, e F 0 T 2 4]),
  (433, [e F 0 T 0 3, e F 0 T 1 2, e T 0 T 2 4]),
  (435, [e F 0 T 0 3, e F 1 T 1 5, e T 0 T 2 1]),
  (437, [e T 0 T 0 2, e F 1 T 0 5, e T 1 T 2 4]),
  (439, [e F 0 T 0 3, e F 0 T 1 3, e F 0 T 2 3]),
  (441, [e F 0 T 0 3, e F 1 T 1 6]),
  (443, [e F 0 T 0 3, e F 0 T 1 4, e F 0 T 2 2]),
  (445, [e F 0 T 0 3, e F 0 T 1 4, e T 0 T 2 2]),
  (447, [e F 0 T 0 3, e F 0 T 1 6]),
  (449, [e F 0 T 0 3, e T 0 T 1 6]),
  (451, [e F 0 T 0 3, e T 0 T 1 4, e F 0 T 2 2]),
  (453, [e F 0 T 0 3, e T 0 T 1 4, e T 0 T 2 2]),
  (455, [e F 0 T 0 3, e T 1 T 1 6]),
  (457, [e F 0 T 0 3, e T 0 T 1 3, e T 0 T 2 3]),
  (459, [e F 0 T 0 3, e T 0 T 1 4, e T 1 T 2 2]),
  (461, [e F 0 T 0 3, e T 1 T 1 5, e F 0 T 2 1]),
  (463, [e F 0 T 0 3, e T 0 T 1 2, e F 0 T 2 4]),
  (465, [e F 0 T 0 4, e F 1 T 1 5]),
  (467, [e T 0 T 0 1, e F 1 T 0 5, e T 1 T 2 4]),
  (469, [e F 0 T 0 3, e T 1 T 1 4, e F 1 T 2 2]),
  (471, [e F 0 T 0 4, e F 0 T 1 2, e F 0 T 2 3]),
  (473, [e F 0 T 0 4, e F 0 T 1 2, e T 0 T 2 3]),
  (475, [e F 0 T 0 4, e F 0 T 1 3, e F 0 T 2 2]),
  (477, [e F 0 T 0 4, e F 0 T 1 3, e T 0 T 2 2]),
  (479, [e F 0 T 0 4, e F 0 T 1 5]),
  (481, [e F 0 T 0 4, e T 0 T 1 5]),
  (483, [e F 0 T 0 4, e T 0 T 1 3, e F 0 T 2 2]),
  (485, [e F 0 T 0 4, e T 0 T 1 3, e T 0 T 2 2]),
  (487, [e F 0 T 0 4, e T 0 T 1 2, e F 0 T 2 3]),
  (489, [e F 0 T 0 4, e T 0 T 1 2, e T 0 T 2 3]),
  (491, [e F 0 T 0 5, e F 0 T 1 2, e F 0 T 2 2]),
  (493, [e F 0 T 0 5, e F 0 T 1 2, e T 0 T 2 2]),
  (495, [e F 0 T 0 5, e F 0 T 1 4]),
  (497, [e F 0 T 0 5, e T 0 T 1 4]),
  (499, [e F 0 T 0 5, e T 0 T 1 2, e F 0 T 2 2]),
  (501, [e F 0 T 0 5, e T 0 T 1 2, e T 0 T 2 2]),
  (503, [e F 0 T 0 6, e F 0 T 1 3]),
  (505, [e F 0 T 0 6, e T 0 T 1 3]),
  (507, [e F 0 T 0 7, e F 0 T 1 2]),
  (509, [e F 0 T 0 7, e T 0 T 1 2]),
  (511, [e F 0 T 0 9])]

/-- `/repo/assets/asc-12.yaml`, entries 256–319 -/
def part4 : List (Nat × Asc) := [
  (513, [e T 0 T 0 9]),
  (515, [e T 0 T 0 7, e F 0 T 1 2]),
  (517, [e T 0 T 0 7, e T 0 T 1 2]),
  (519, [e T 0 T 0 6, e F 0 T 1 3]),
  (521, [e T 0 T 0 6, e T 0 T 1 3]),
  (523, [e T 0 T 0 5, e F 0 T 1 2, e F 0 T 2 2]),
  (525, [e T 0 T 0 5, e F 0 T 1 2, e T 0 T 2 2]),
  (527, [e T 0 T 0 5, e F 0 T 1 4]),
  (529, [e T 0 T 0 5, e T 0 T 1 4]),
  (531, [e T 0 T 0 5, e T 0 T 1 2, e F 0 T 2 2]),
  (533, [e T 0 T 0 5, e T 0 T 1 2, e T 0 T 2 2]),
  (535, [e T 0 T 0 4, e F 0 T 1 2, e F 0 T 2 3]),
  (537, [e T 0 T 0 4, e F 0 T 1 2, e T 0 T 2 3]),
  (539, [e T 0 T 0 4, e F 0 T 1 3, e F 0 T 2 2]),
  (541, [e T 0 T 0 4, e F 0 T 1 3, e T 0 T 2 2]),
  (543, [e T 0 T 0 4, e F 0 T 1 5]),
  (545, [e T 0 T 0 4, e T 0 T 1 5]),
  (547, [e T 0 T 0 4, e T 0 T 1 3, e F 0 T 2 2]),
  (549, [e T 0 T 0 4, e T 0 T 1 3, e T 0 T 2 2]),
  (551, [e T 0 T 0 4, e T 0 T 1 2, e F 0 T 2 3]),
  (553, [e T 0 T 0 4, e T 0 T 1 2, e T 0 T 2 3]),
  (555, [e T 0 T 0 2, e F 1 T 1 3, e F 1 T 2 4]),
  (557, [e T 0 T 0 3, e F 1 T 1 5, e F 0 T 2 1]),
  (559, [e T 0 T 0 3, e F 0 T 1 2, e F 0 T 2 4]),
  (561, [e T 0 T 0 4, e T 1 T 1 5]),
  (563, [e T 0 T 0 1, e T 1 T 0 5, e T 1 T 2 4]),
  (565, [e T 0 T 0 2, e F 1 T 1 3, e T 1 T 2 4]),
  (567, [e T 0 T 0 3, e F 1 T 1 6]),
  (569, [e T 0 T 0 3, e F 0 T 1 3, e T 0 T 2 3]),
  (571, [e T 0 T 0 3, e F 0 T 1 4, e F 0 T 2 2]),
  (573, [e T 0 T 0 3, e F 0 T 1 4, e T 0 T 2 2]),
  (575, [e T 0 T 0 3, e F 0 T 1 6]),
  (577, [e T 0 T 0 3, e T 0 T 1 6]),
  (579, [e T 0 T 0 3, e T 0 T 1 4, e F 0 T 2 2]),
  (581, [e T 0 T 0 3, e T 0 T 1 4, e T 0 T 2 2]),
  (583, [e T 0 T 0 3, e T 0 T 1 3, e F 0 T 2 3]),
  (585, [e T 0 T 0 3, e T 1 T 1 6]),
  (587, [e T 0 T 0 2, e T 1 T 0 5, e F 1 T 2 4]),
  (589, [e T 0 T 0 3, e T 0 T 1 4, e T 1 T 2 2]),
  (591, [e T 0 T 0 3, e T 0 T 1 2, e F 0 T 2 4]),
  (593, [e T 0 T 0 3, e T 0 T 1 2, e T 0 T 2 4]),
  (595, [e T 0 T 0 3, e T 1 T 1 5, e T 0 T 2 1]),
  (597, [e T 0 T 0 2, e T 1 T 0 5, e T 1 T 2 4]),
  (599, [e T 0 T 0 2, e F 1 T 1 4, e F 0 T 2 3]),
  (601, [e T 0 T 0 2, e F 1 T 1 4, e T 0 T 2 3]),
  (603, [e T 0 T 0 2, e F 0 T 1 2, e F 1 T 2 5]),
  (605, [e T 0 T 0 1, e T 1 T 0 4, e F 1 T 2 5]),
  (607, [e T 0 T 0 2, e F 0 T 1 2, e F 0 T 2 5]),
  (609, [e T 0 T 0 2, e F 0 T 1 2, e T 0 T 2 5]),
  (611, [e T 0 T 0 3, e T 1 T 1 4, e F 0 T 2 2]),
  (613, [e T 0 T 0 3, e T 1 T 1 4, e T 0 T 2 2]),
  (615, [e T 0 T 0 2, e F 1 T 1 5, e F 1 T 2 2]),
  (617, [e T 0 T 0 3, e T 0 T 1 1, e T 1 T 2 5]),
  (619, [e T 0 T 0 2, e F 1 T 1 5, e F 0 T 2 2]),
  (621, [e T 0 T 0 2, e F 1 T 1 5, e T 0 T 2 2]),
  (623, [e T 0 T 0 2, e F 0 T 1 3, e F 0 T 2 4]),
  (625, [e T 0 T 0 2, e F 0 T 1 3, e T 0 T 2 4]),
  (627, [e T 0 T 0 2, e F 0 T 1 4, e F 1 T 2 3]),
  (629, [e T 0 T 0 2, e F 1 T 1 6, e F 0 T 2 1]),
  (631, [e T 0 T 0 2, e F 0 T 1 4, e F 0 T 2 3]),
  (633, [e T 0 T 0 2, e F 0 T 1 4, e T 0 T 2 3]),
  (635, [e T 0 T 0 2, e F 1 T 1 7]),
  (637, [e T 0 T 0 2, e F 0 T 1 5, e T 0 T 2 2]),
  (639, [e T 0 T 0 2, e F 0 T 1 7])]

/-- `/repo/assets/asc-12.yaml`, entries 320–383 -/
def part5 : List (Nat × Asc) := [
  (641, [e T 0 T 0 2, e T 0 T 1 7]),
  (643, [e T 0 T 0 2, e T 0 T 1 5, e F 0 T 2 2]),
  (645, [e T 0 T 0 2, e T 1 T 1 7]),
  (647, [e T 0 T 0 2, e T 0 T 1 4, e F 0 T 2 3]),
  (649, [e T 0 T 0 2, e T 0 T 1 4, e T 0 T 2 3]),
  (651, [e T 0 T 0 2, e T 1 T 1 6, e T 0 T 2 1]),
  (653, [e T 0 T 0 2, e T 0 T 1 4, e T 1 T 2 3]),
  (655, [e T 0 T 0 2, e T 0 T 1 3, e F 0 T 2 4]),
  (657, [e T 0 T 0 2, e T 0 T 1 3, e T 0 T 2 4]),
  (659, [e T 0 T 0 2, e T 1 T 1 5, e F 0 T 2 2]),
  (661, [e T 0 T 0 2, e T 1 T 1 5, e T 0 T 2 2]),
  (663, [e T 0 T 0 4, e T 1 T 1 2, e F 1 T 2 3]),
  (665, [e T 0 T 0 2, e T 1 T 1 5, e T 1 T 2 2]),
  (667, [e T 0 T 0 2, e T 0 T 1 2, e F 1 T 2 5]),
  (669, [e T 0 T 0 1, e F 1 T 1 3, e F 1 T 2 5]),
  (671, [e T 0 T 0 2, e T 0 T 1 2, e F 0 T 2 5]),
  (673, [e T 0 T 0 2, e T 0 T 1 2, e T 0 T 2 5]),
  (675, [e T 0 T 0 1, e F 1 T 1 3, e T 1 T 2 5]),
  (677, [e T 0 T 0 2, e T 0 T 1 2, e T 1 T 2 5]),
  (679, [e T 0 T 0 2, e T 1 T 1 4, e F 0 T 2 3]),
  (681, [e T 0 T 0 2, e T 1 T 1 4, e T 0 T 2 3]),
  (683, [e T 0 T 0 2, e T 1 T 1 4, e T 0 T 2 1, e F 0 T 3 2]),
  (685, [e T 0 T 0 2, e T 1 T 1 4, e T 1 T 2 3]),
  (687, [e T 0 T 0 1, e F 0 T 1 2, e F 0 T 2 2, e F 0 T 3 4]),
  (689, [e T 0 T 0 4, e T 1 T 0 2, e T 1 T 2 5]),
  (691, [e T 0 T 0 1, e F 0 T 1 2, e F 1 T 2 4, e F 0 T 3 2]),
  (693, [e T 0 T 0 5, e T 1 T 1 2, e T 1 T 2 2]),
  (695, [e T 0 T 0 3, e T 1 T 0 1, e F 1 T 2 6]),
  (697, [e F 0 T 0 3, e T 1 T 0 2, e F 1 T 2 6]),
  (699, [e T 0 T 0 2, e T 0 T 1 1, e F 1 T 2 6]),
  (701, [e T 0 T 0 1, e F 0 T 1 2, e F 1 T 2 6]),
  (703, [e T 0 T 0 1, e F 0 T 1 2, e F 0 T 2 6]),
  (705, [e T 0 T 0 1, e F 0 T 1 2, e T 0 T 2 6]),
  (707, [e T 0 T 0 1, e F 0 T 1 2, e T 1 T 2 6]),
  (709, [e T 0 T 0 2, e T 0 T 1 1, e T 1 T 2 6]),
  (711, [e T 0 T 0 3, e T 1 T 1 2, e F 1 T 2 4]),
  (713, [e T 0 T 0 3, e T 1 T 0 1, e T 1 T 2 6]),
  (715, [e T 0 T 0 2, e T 1 T 1 3, e F 1 T 2 4]),
  (717, [e T 0 T 0 1, e F 1 T 1 4, e F 1 T 2 4]),
  (719, [e T 0 T 0 1, e F 1 T 1 4, e F 0 T 2 4]),
  (721, [e T 0 T 0 1, e F 1 T 1 4, e T 0 T 2 4]),
  (723, [e T 0 T 0 1, e F 1 T 1 4, e T 1 T 2 4]),
  (725, [e T 0 T 0 2, e T 1 T 1 3, e T 1 T 2 4]),
  (727, [e T 0 T 0 3, e F 1 T 0 5, e F 1 T 2 5]),
  (729, [e T 0 T 0 3, e T 1 T 1 2, e T 1 T 2 4]),
  (731, [e T 0 T 0 1, e F 0 T 1 3, e F 0 T 2 3, e F 0 T 3 2]),
  (733, [e T 0 T 0 1, e F 0 T 1 3, e F 1 T 2 5]),
  (735, [e T 0 T 0 1, e F 0 T 1 3, e F 0 T 2 5]),
  (737, [e T 0 T 0 1, e F 0 T 1 3, e T 0 T 2 5]),
  (739, [e T 0 T 0 1, e F 0 T 1 3, e T 1 T 2 5]),
  (741, [e T 0 T 0 1, e F 1 T 1 5, e F 1 T 2 3]),
  (743, [e T 0 T 0 1, e F 1 T 1 5, e F 0 T 2 3]),
  (745, [e T 0 T 0 1, e F 1 T 1 5, e T 0 T 2 3]),
  (747, [e T 0 T 0 1, e F 1 T 1 5, e T 1 T 2 3]),
  (749, [e T 0 T 0 1, e F 0 T 1 4, e F 1 T 2 4]),
  (751, [e T 0 T 0 1, e F 0 T 1 4, e F 0 T 2 4]),
  (753, [e T 0 T 0 1, e F 0 T 1 4, e T 0 T 2 4]),
  (755, [e T 0 T 0 1, e F 1 T 1 6, e F 0 T 2 2]),
  (757, [e T 0 T 0 1, e F 1 T 1 6, e T 0 T 2 2]),
  (759, [e T 0 T 0 1, e F 0 T 1 5, e F 0 T 2 3]),
  (761, [e T 0 T 0 1, e F 0 T 1 5, e T 0 T 2 3]),
  (763, [e T 0 T 0 1, e F 0 T 1 6, e F 0 T 2 2]),
  (765, [e T 0 T 0 1, e F 1 T 1 8]),
  (767, [e T 0 T 0 1, e F 0 T 1 8])]

/-- `/repo/assets/asc-12.yaml`, entries 384–447 -/
def part6 : List (Nat × Asc) := [
  (769, [e T 0 T 0 1, e T 0 T 1 8]),
  (771, [e T 0 T 0 1, e T 1 T 1 8]),
  (773, [e T 0 T 0 1, e T 0 T 1 6, e T 0 T 2 2]),
  (775, [e T 0 T 0 1, e T 0 T 1 5, e F 0 T 2 3]),
  (777, [e T 0 T 0 1, e T 0 T 1 5, e T 0 T 2 3]),
  (779, [e T 0 T 0 1, e T 1 T 1 6, e F 0 T 2 2]),
  (781, [e T 0 T 0 1, e T 1 T 1 6, e T 0 T 2 2]),
  (783, [e T 0 T 0 1, e T 0 T 1 4, e F 0 T 2 4]),
  (785, [e T 0 T 0 1, e T 0 T 1 4, e T 0 T 2 4]),
  (787, [e T 0 T 0 1, e T 0 T 1 4, e T 1 T 2 4]),
  (789, [e T 0 T 0 1, e T 1 T 1 5, e F 1 T 2 3]),
  (791, [e T 0 T 0 1, e T 1 T 1 5, e F 0 T 2 3]),
  (793, [e T 0 T 0 1, e T 1 T 1 5, e T 0 T 2 3]),
  (795, [e T 0 T 0 1, e T 1 T 1 5, e T 1 T 2 3]),
  (797, [e T 0 T 0 1, e T 0 T 1 3, e F 1 T 2 5]),
  (799, [e T 0 T 0 1, e T 0 T 1 3, e F 0 T 2 5]),
  (801, [e T 0 T 0 1, e T 0 T 1 3, e T 0 T 2 5]),
  (803, [e T 0 T 0 1, e T 0 T 1 3, e T 1 T 2 5]),
  (805, [e T 0 T 0 2, e T 1 T 1 2, e T 1 T 2 5]),
  (807, [e F 0 T 0 3, e F 1 T 0 5, e T 1 T 2 5]),
  (809, [e T 0 T 0 3, e T 1 T 0 4, e T 1 T 2 5]),
  (811, [e T 0 T 0 1, e T 1 T 1 4, e F 0 T 2 2, e F 0 T 3 2]),
  (813, [e T 0 T 0 1, e T 1 T 1 4, e F 1 T 2 4]),
  (815, [e T 0 T 0 1, e T 1 T 1 4, e F 0 T 2 4]),
  (817, [e T 0 T 0 1, e T 1 T 1 4, e T 0 T 2 4]),
  (819, [e T 0 T 0 1, e T 1 T 1 4, e T 1 T 2 4]),
  (821, [e T 0 T 0 1, e T 1 T 1 4, e T 0 T 2 2, e T 0 T 3 2]),
  (823, [e T 0 T 0 3, e T 1 T 0 2, e F 1 T 2 6]),
  (825, [e F 0 T 0 3, e F 0 T 1 1, e F 1 T 2 6]),
  (827, [e T 0 T 0 2, e T 1 T 0 3, e F 1 T 2 6]),
  (829, [e T 0 T 0 1, e T 0 T 1 2, e F 1 T 2 6]),
  (831, [e T 0 T 0 1, e T 0 T 1 2, e F 0 T 2 6]),
  (833, [e T 0 T 0 1, e T 0 T 1 2, e T 0 T 2 6]),
  (835, [e T 0 T 0 1, e T 0 T 1 2, e T 1 T 2 6]),
  (837, [e T 0 T 0 2, e T 1 T 0 3, e T 1 T 2 6]),
  (839, [e F 0 T 0 3, e F 1 T 1 4, e F 0 T 2 3]),
  (841, [e F 0 T 0 3, e F 1 T 1 4, e T 0 T 2 3]),
  (843, [e F 0 T 0 3, e F 1 T 1 4, e T 0 T 2 1, e F 0 T 3 2]),
  (845, [e T 0 T 0 6, e T 1 T 1 1, e T 1 T 2 2]),
  (847, [e F 0 T 0 3, e F 1 T 1 4, e T 1 T 2 3]),
  (849, [e T 0 T 0 4, e T 1 F 0 2, e T 1 T 2 6]),
  (851, [e T 0 T 0 1, e T 1 T 1 3, e F 1 T 2 3, e F 0 T 3 2]),
  (853, [e T 0 T 0 1, e T 1 T 1 3, e F 1 T 2 3, e T 0 T 3 2]),
  (855, [e T 0 T 0 3, e T 1 T 1 1, e F 1 T 2 5]),
  (857, [e F 0 T 0 3, e F 0 T 1 2, e F 1 T 2 5]),
  (859, [e T 0 T 0 2, e F 1 T 0 5, e F 1 T 2 5]),
  (861, [e T 0 T 0 1, e T 1 T 1 3, e F 1 T 2 5]),
  (863, [e F 0 T 0 3, e F 0 T 1 2, e F 0 T 2 5]),
  (865, [e F 0 T 0 3, e F 0 T 1 2, e T 0 T 2 5]),
  (867, [e F 0 T 0 3, e F 1 T 1 5, e F 0 T 2 2]),
  (869, [e F 0 T 0 3, e F 1 T 1 5, e T 0 T 2 2]),
  (871, [e T 0 T 0 3, e F 1 T 0 6, e F 1 T 2 4]),
  (873, [e T 0 T 0 3, e T 1 T 1 1, e T 1 T 2 5]),
  (875, [e F 0 T 0 3, e F 1 T 1 5, e T 1 T 2 2]),
  (877, [e F 0 T 0 3, e F 0 T 1 3, e F 0 T 2 2, e T 0 T 3 2]),
  (879, [e F 0 T 0 3, e F 0 T 1 3, e F 0 T 2 4]),
  (881, [e F 0 T 0 3, e F 0 T 1 3, e T 0 T 2 4]),
  (883, [e F 0 T 0 3, e F 1 T 1 6, e T 0 T 2 1]),
  (885, [e F 0 T 0 3, e F 0 T 1 5, e F 1 T 2 2]),
  (887, [e F 0 T 0 3, e F 0 T 1 4, e F 0 T 2 3]),
  (889, [e F 0 T 0 3, e F 1 T 1 7]),
  (891, [e F 0 T 0 3, e F 0 T 1 5, e F 0 T 2 2]),
  (893, [e F 0 T 0 3, e F 0 T 1 5, e T 0 T 2 2]),
  (895, [e F 0 T 0 3, e F 0 T 1 7])]

/-- `/repo/assets/asc-12.yaml`, entries 448–511 -/
def part7 : List (Nat × Asc) := [
  (897, [e F 0 T 0 3, e T 0 T 1 7]),
  (899, [e F 0 T 0 3, e T 0 T 1 5, e F 0 T 2 2]),
  (901, [e F 0 T 0 3, e T 0 T 1 5, e T 0 T 2 2]),
  (903, [e F 0 T 0 3, e T 1 T 1 7]),
  (905, [e F 0 T 0 3, e T 0 T 1 4, e T 0 T 2 3]),
  (907, [e F 0 T 0 3, e T 0 T 1 5, e T 1 T 2 2]),
  (909, [e F 0 T 0 3, e T 1 T 1 6, e F 0 T 2 1]),
  (911, [e F 0 T 0 3, e T 0 T 1 3, e F 0 T 2 4]),
  (913, [e F 0 T 0 3, e T 0 T 1 3, e T 0 T 2 4]),
  (915, [e F 0 T 0 4, e F 1 T 1 4, e T 1 T 2 2]),
  (917, [e F 0 T 0 3, e T 1 T 1 5, e F 1 T 2 2]),
  (919, [e F 0 T 0 3, e T 0 T 1 3, e T 1 T 2 4]),
  (921, [e F 0 T 0 3, e T 0 T 1 2, e F 1 T 2 5]),
  (923, [e F 0 T 0 3, e T 1 T 1 5, e F 0 T 2 2]),
  (925, [e F 0 T 0 3, e T 1 T 1 5, e T 0 T 2 2]),
  (927, [e F 0 T 0 3, e T 0 T 1 2, e F 0 T 2 5]),
  (929, [e F 0 T 0 3, e T 0 T 1 2, e T 0 T 2 5]),
  (931, [e F 0 T 0 4, e F 1 T 1 5, e T 0 T 2 1]),
  (933, [e F 0 T 0 3, e T 0 T 1 2, e T 0 T 2 3, e T 0 T 3 2]),
  (935, [e F 0 T 0 3, e T 0 T 1 2, e T 1 T 2 5]),
  (937, [e F 0 T 0 4, e F 0 T 1 3, e F 1 T 2 3]),
  (939, [e T 0 T 0 2, e F 1 T 0 6, e F 1 T 2 4]),
  (941, [e F 0 T 0 4, e F 0 T 1 4, e F 1 T 2 2]),
  (943, [e F 0 T 0 4, e F 0 T 1 2, e F 0 T 2 4]),
  (945, [e F 0 T 0 4, e F 1 T 1 6]),
  (947, [e F 0 T 0 4, e T 0 T 1 5, e F 1 T 2 1]),
  (949, [e T 0 T 0 2, e F 1 T 0 6, e T 1 T 2 4]),
  (951, [e F 0 T 0 4, e F 0 T 1 3, e F 0 T 2 3]),
  (953, [e F 0 T 0 4, e F 0 T 1 3, e T 0 T 2 3]),
  (955, [e F 0 T 0 4, e F 0 T 1 4, e F 0 T 2 2]),
  (957, [e F 0 T 0 4, e F 0 T 1 4, e T 0 T 2 2]),
  (959, [e F 0 T 0 4, e F 0 T 1 6]),
  (961, [e F 0 T 0 4, e T 0 T 1 6]),
  (963, [e F 0 T 0 4, e T 0 T 1 4, e F 0 T 2 2]),
  (965, [e F 0 T 0 4, e T 0 T 1 4, e T 0 T 2 2]),
  (967, [e F 0 T 0 4, e T 0 T 1 3, e F 0 T 2 3]),
  (969, [e F 0 T 0 4, e T 0 T 1 3, e T 0 T 2 3]),
  (971, [e F 0 T 0 4, e F 0 T 1 4, e T 1 T 2 2]),
  (973, [e T 0 T 0 1, e F 1 T 0 6, e F 1 T 2 4]),
  (975, [e F 0 T 0 4, e T 1 T 1 6]),
  (977, [e F 0 T 0 4, e T 0 T 1 2, e T 0 T 2 4]),
  (979, [e T 0 T 0 1, e F 1 T 0 6, e T 1 T 2 4]),
  (981, [e F 0 T 0 4, e T 0 T 1 2, e T 0 T 2 2, e T 0 T 3 2]),
  (983, [e F 0 T 0 5, e F 0 T 1 2, e F 0 T 2 3]),
  (985, [e F 0 T 0 5, e F 0 T 1 2, e T 0 T 2 3]),
  (987, [e F 0 T 0 5, e F 0 T 1 3, e F 0 T 2 2]),
  (989, [e F 0 T 0 5, e F 0 T 1 3, e T 0 T 2 2]),
  (991, [e F 0 T 0 5, e F 0 T 1 5]),
  (993, [e F 0 T 0 5, e T 0 T 1 5]),
  (995, [e F 0 T 0 5, e T 0 T 1 3, e F 0 T 2 2]),
  (997, [e F 0 T 0 5, e T 0 T 1 3, e T 0 T 2 2]),
  (999, [e F 0 T 0 5, e T 0 T 1 2, e F 0 T 2 3]),
  (1001, [e F 0 T 0 5, e T 0 T 1 2, e T 0 T 2 3]),
  (1003, [e F 0 T 0 6, e F 0 T 1 2, e F 0 T 2 2]),
  (1005, [e F 0 T 0 6, e F 0 T 1 2, e T 0 T 2 2]),
  (1007, [e F 0 T 0 6, e F 0 T 1 4]),
  (1009, [e F 0 T 0 6, e T 0 T 1 4]),
  (1011, [e F 0 T 0 6, e T 0 T 1 2, e F 0 T 2 2]),
  (1013, [e F 0 T 0 6, e T 0 T 1 2, e T 0 T 2 2]),
  (1015, [e F 0 T 0 7, e F 0 T 1 3]),
  (1017, [e F 0 T 0 7, e T 0 T 1 3]),
  (1019, [e F 0 T 0 8, e F 0 T 1 2]),
  (1021, [e F 0 T 0 8, e T 0 T 1 2]),
  (1023, [e F 0 T 0 10])]

/-- `/repo/assets/asc-12.yaml`, entries 512–575 -/
def part8 : List (Nat × Asc) := [
  (1025, [e T 0 T 0 10]),
  (1027, [e T 0 T 0 8, e F 0 T 1 2]),
  (1029, [e T 0 T 0 8, e T 0 T 1 2]),
  (1031, [e T 0 T 0 7, e F 0 T 1 3]),
  (1033, [e T 0 T 0 7, e T 0 T 1 3]),
  (1035, [e T 0 T 0 6, e F 0 T 1 2, e F 0 T 2 2]),
  (1037, [e T 0 T 0 6, e F 0 T 1 2, e T 0 T 2 2]),
  (1039, [e T 0 T 0 6, e F 0 T 1 4]),
  (1041, [e T 0 T 0 6, e T 0 T 1 4]),
  (1043, [e T 0 T 0 6, e T 0 T 1 2, e F 0 T 2 2]),
  (1045, [e T 0 T 0 6, e T 0 T 1 2, e T 0 T 2 2]),
  (1047, [e T 0 T 0 5, e F 0 T 1 2, e F 0 T 2 3]),
  (1049, [e T 0 T 0 5, e F 0 T 1 2, e T 0 T 2 3]),
  (1051, [e T 0 T 0 5, e F 0 T 1 3, e F 0 T 2 2]),
  (1053, [e T 0 T 0 5, e F 0 T 1 3, e T 0 T 2 2]),
  (1055, [e T 0 T 0 5, e F 0 T 1 5]),
  (1057, [e T 0 T 0 5, e T 0 T 1 5]),
  (1059, [e T 0 T 0 5, e T 0 T 1 3, e F 0 T 2 2]),
  (1061, [e T 0 T 0 5, e T 0 T 1 3, e T 0 T 2 2]),
  (1063, [e T 0 T 0 5, e T 0 T 1 2, e F 0 T 2 3]),
  (1065, [e T 0 T 0 5, e T 0 T 1 2, e T 0 T 2 3]),
  (1067, [e T 0 T 0 4, e F 0 T 1 4, e F 1 T 2 2]),
  (1069, [e T 0 T 0 1, e T 1 T 0 6, e F 1 T 2 4]),
  (1071, [e T 0 T 0 4, e F 1 T 1 6]),
  (1073, [e T 0 T 0 4, e F 0 T 1 2, e T 0 T 2 4]),
  (1075, [e T 0 T 0 1, e T 1 T 0 6, e T 1 T 2 4]),
  (1077, [e T 0 T 0 4, e F 0 T 1 2, e T 0 T 2 2, e T 0 T 3 2]),
  (1079, [e T 0 T 0 4, e F 0 T 1 3, e F 0 T 2 3]),
  (1081, [e T 0 T 0 4, e F 0 T 1 3, e T 0 T 2 3]),
  (1083, [e T 0 T 0 4, e F 0 T 1 4, e F 0 T 2 2]),
  (1085, [e T 0 T 0 4, e F 0 T 1 4, e T 0 T 2 2]),
  (1087, [e T 0 T 0 4, e F 0 T 1 6]),
  (1089, [e T 0 T 0 4, e T 0 T 1 6]),
  (1091, [e T 0 T 0 4, e T 0 T 1 4, e F 0 T 2 2]),
  (1093, [e T 0 T 0 4, e T 0 T 1 4, e T 0 T 2 2]),
  (1095, [e T 0 T 0 4, e T 0 T 1 3, e F 0 T 2 3]),
  (1097, [e T 0 T 0 4, e T 0 T 1 3, e T 0 T 2 3]),
  (1099, [e T 0 T 0 2, e T 1 T 0 6, e F 1 T 2 4]),
  (1101, [e T 0 T 0 4, e F 0 T 1 4, e T 1 T 2 2]),
  (1103, [e T 0 T 0 4, e T 0 T 1 2, e F 0 T 2 4]),
  (1105, [e T 0 T 0 4, e T 1 T 1 6]),
  (1107, [e T 0 T 0 3, e F 1 T 1 5, e F 1 T 2 2]),
  (1109, [e T 0 T 0 2, e T 1 T 0 6, e T 1 T 2 4]),
  (1111, [e T 0 T 0 3, e F 0 T 1 2, e F 1 T 2 5]),
  (1113, [e F 0 T 0 3, e T 1 T 1 2, e F 1 T 2 5]),
  (1115, [e T 0 T 0 3, e F 1 T 1 5, e F 0 T 2 2]),
  (1117, [e T 0 T 0 3, e F 1 T 1 5, e T 0 T 2 2]),
  (1119, [e T 0 T 0 3, e F 0 T 1 2, e F 0 T 2 5]),
  (1121, [e T 0 T 0 3, e F 0 T 1 2, e T 0 T 2 5]),
  (1123, [e T 0 T 0 4, e T 1 T 1 5, e T 0 T 2 1]),
  (1125, [e T 0 T 0 2, e F 1 T 1 3, e T 1 T 2 5]),
  (1127, [e T 0 T 0 3, e F 0 T 1 3, e F 1 T 2 4]),
  (1129, [e T 0 T 0 3, e F 0 T 1 2, e T 1 T 2 5]),
  (1131, [e T 0 T 0 3, e F 0 T 1 3, e F 0 T 2 2, e F 0 T 3 2]),
  (1133, [e T 0 T 0 3, e F 1 T 1 6, e F 0 T 2 1]),
  (1135, [e T 0 T 0 3, e F 0 T 1 3, e F 0 T 2 4]),
  (1137, [e T 0 T 0 3, e F 0 T 1 3, e T 0 T 2 4]),
  (1139, [e T 0 T 0 3, e F 0 T 1 5, e F 1 T 2 2]),
  (1141, [e T 0 T 0 3, e F 0 T 1 6, e F 1 T 2 1]),
  (1143, [e T 0 T 0 3, e F 1 T 1 7]),
  (1145, [e T 0 T 0 3, e F 0 T 1 4, e T 0 T 2 3]),
  (1147, [e T 0 T 0 3, e F 0 T 1 5, e F 0 T 2 2]),
  (1149, [e T 0 T 0 3, e F 0 T 1 5, e T 0 T 2 2]),
  (1151, [e T 0 T 0 3, e F 0 T 1 7])]

/-- `/repo/assets/asc-12.yaml`, entries 576–639 -/
def part9 : List (Nat × Asc) := [
  (1153, [e T 0 T 0 3, e T 0 T 1 7]),
  (1155, [e T 0 T 0 3, e T 0 T 1 5, e F 0 T 2 2]),
  (1157, [e T 0 T 0 3, e T 0 T 1 5, e T 0 T 2 2]),
  (1159, [e T 0 T 0 3, e T 0 T 1 4, e F 0 T 2 3]),
  (1161, [e T 0 T 0 3, e T 1 T 1 7]),
  (1163, [e T 0 T 0 3, e T 0 T 1 6, e T 1 T 2 1]),
  (1165, [e T 0 T 0 3, e T 0 T 1 5, e T 1 T 2 2]),
  (1167, [e T 0 T 0 3, e T 0 T 1 3, e F 0 T 2 4]),
  (1169, [e T 0 T 0 3, e T 0 T 1 3, e T 0 T 2 4]),
  (1171, [e T 0 T 0 3, e T 1 T 1 6, e T 0 T 2 1]),
  (1173, [e T 0 T 0 4, e T 1 T 1 4, e T 1 T 2 2]),
  (1175, [e T 0 T 0 3, e T 0 T 1 2, e F 1 T 2 5]),
  (1177, [e T 0 T 0 3, e T 0 T 1 3, e T 1 T 2 4]),
  (1179, [e T 0 T 0 2, e T 1 T 0 5, e F 1 T 2 5]),
  (1181, [e T 0 T 0 3, e T 0 T 1 2, e F 0 T 2 3, e T 0 T 3 2]),
  (1183, [e T 0 T 0 3, e T 0 T 1 2, e F 0 T 2 5]),
  (1185, [e T 0 T 0 3, e T 0 T 1 2, e T 0 T 2 5]),
  (1187, [e T 0 T 0 3, e T 1 T 1 5, e F 0 T 2 2]),
  (1189, [e T 0 T 0 3, e T 1 T 1 5, e T 0 T 2 2]),
  (1191, [e T 0 T 0 3, e T 0 T 1 2, e T 0 T 2 2, e F 0 T 3 3]),
  (1193, [e T 0 T 0 3, e T 0 T 1 2, e T 1 T 2 5]),
  (1195, [e T 0 T 0 2, e F 1 T 1 4, e F 1 T 2 4]),
  (1197, [e T 0 T 0 3, e T 1 T 1 5, e T 1 T 2 2]),
  (1199, [e T 0 T 0 2, e F 1 T 1 4, e F 0 T 2 4]),
  (1201, [e T 0 T 0 2, e F 1 T 1 4, e T 0 T 2 4]),
  (1203, [e T 0 T 0 2, e F 1 T 1 4, e T 0 T 2 2, e F 0 T 3 2]),
  (1205, [e T 0 T 0 2, e F 1 T 1 4, e T 1 T 2 4]),
  (1207, [e T 0 T 0 3, e T 0 T 1 1, e F 1 T 2 6]),
  (1209, [e F 0 T 0 5, e T 1 T 1 2, e F 1 T 2 3]),
  (1211, [e T 0 T 0 2, e F 0 T 1 2, e F 1 T 2 6]),
  (1213, [e T 0 T 0 1, e T 1 T 0 4, e F 1 T 2 6]),
  (1215, [e T 0 T 0 2, e F 0 T 1 2, e F 0 T 2 6]),
  (1217, [e T 0 T 0 2, e F 0 T 1 2, e T 0 T 2 6]),
  (1219, [e T 0 T 0 1, e T 1 T 0 4, e T 1 T 2 6]),
  (1221, [e T 0 T 0 2, e F 0 T 1 2, e T 1 T 2 6]),
  (1223, [e T 0 T 0 3, e T 1 T 1 4, e F 0 T 2 3]),
  (1225, [e T 0 T 0 3, e T 1 T 1 4, e T 0 T 2 3]),
  (1227, [e T 0 T 0 3, e T 1 T 1 4, e T 0 T 2 1, e F 0 T 3 2]),
  (1229, [e T 0 T 0 3, e T 1 T 1 4, e T 0 T 2 1, e T 0 T 3 2]),
  (1231, [e F 0 T 0 4, e T 1 T 0 2, e T 1 T 2 6]),
  (1233, [e T 0 T 0 3, e T 1 T 1 4, e T 1 T 2 3]),
  (1235, [e T 0 T 0 2, e F 1 T 1 5, e F 1 T 2 3]),
  (1237, [e T 0 T 0 2, e F 1 T 1 5, e F 0 T 2 1, e T 0 T 3 2]),
  (1239, [e T 0 T 0 2, e F 1 T 1 5, e F 0 T 2 3]),
  (1241, [e T 0 T 0 2, e F 1 T 1 5, e T 0 T 2 3]),
  (1243, [e T 0 T 0 2, e F 0 T 1 3, e F 1 T 2 5]),
  (1245, [e T 0 T 0 2, e F 1 T 1 5, e T 1 T 2 3]),
  (1247, [e T 0 T 0 2, e F 0 T 1 3, e F 0 T 2 5]),
  (1249, [e T 0 T 0 2, e F 0 T 1 3, e T 0 T 2 5]),
  (1251, [e T 0 T 0 2, e F 0 T 1 3, e T 0 T 2 3, e F 0 T 3 2]),
  (1253, [e T 0 T 0 2, e F 0 T 1 3, e T 1 T 2 5]),
  (1255, [e T 0 T 0 2, e F 1 T 1 6, e F 1 T 2 2]),
  (1257, [e T 0 T 0 2, e F 0 T 1 3, e T 0 T 2 2, e T 0 T 3 3]),
  (1259, [e T 0 T 0 2, e F 1 T 1 6, e F 0 T 2 2]),
  (1261, [e T 0 T 0 2, e F 1 T 1 6, e T 0 T 2 2]),
  (1263, [e T 0 T 0 2, e F 0 T 1 4, e F 0 T 2 4]),
  (1265, [e T 0 T 0 2, e F 0 T 1 4, e T 0 T 2 4]),
  (1267, [e T 0 T 0 2, e F 0 T 1 5, e F 1 T 2 3]),
  (1269, [e T 0 T 0 2, e F 1 T 1 7, e F 0 T 2 1]),
  (1271, [e T 0 T 0 2, e F 0 T 1 5, e F 0 T 2 3]),
  (1273, [e T 0 T 0 2, e F 0 T 1 5, e T 0 T 2 3]),
  (1275, [e T 0 T 0 2, e F 1 T 1 8]),
  (1277, [e T 0 T 0 2, e F 0 T 1 6, e T 0 T 2 2]),
  (1279, [e T 0 T 0 2, e F 0 T 1 8])]

/-- `/repo/assets/asc-12.yaml`, entries 640–703 -/
def part10 : List (Nat × Asc) := [
  (1281, [e T 0 T 0 2, e T 0 T 1 8]),
  (1283, [e T 0 T 0 2, e T 0 T 1 6, e F 0 T 2 2]),
  (1285, [e T 0 T 0 2, e T 1 T 1 8]),
  (1287, [e T 0 T 0 2, e T 0 T 1 5, e F 0 T 2 3]),
  (1289, [e T 0 T 0 2, e T 0 T 1 5, e T 0 T 2 3]),
  (1291, [e T 0 T 0 2, e T 1 T 1 7, e T 0 T 2 1]),
  (1293, [e T 0 T 0 2, e T 0 T 1 5, e T 1 T 2 3]),
  (1295, [e T 0 T 0 2, e T 0 T 1 4, e F 0 T 2 4]),
  (1297, [e T 0 T 0 2, e T 0 T 1 4, e T 0 T 2 4]),
  (1299, [e T 0 T 0 2, e T 1 T 1 6, e F 0 T 2 2]),
  (1301, [e T 0 T 0 2, e T 1 T 1 6, e T 0 T 2 2]),
  (1303, [e T 0 T 0 3, e T 1 T 0 5, e F 1 T 2 5]),
  (1305, [e T 0 T 0 2, e T 1 T 1 6, e T 1 T 2 2]),
  (1307, [e T 0 T 0 2, e T 0 T 1 3, e F 1 T 2 5]),
  (1309, [e T 0 T 0 2, e T 0 T 1 3, e F 0 T 2 3, e T 0 T 3 2]),
  (1311, [e T 0 T 0 2, e T 0 T 1 3, e F 0 T 2 5]),
  (1313, [e T 0 T 0 2, e T 0 T 1 3, e T 0 T 2 5]),
  (1315, [e T 0 T 0 2, e T 1 T 1 5, e F 1 T 2 3]),
  (1317, [e T 0 T 0 2, e T 0 T 1 3, e T 1 T 2 5]),
  (1319, [e T 0 T 0 2, e T 1 T 1 5, e F 0 T 2 3]),
  (1321, [e T 0 T 0 2, e T 1 T 1 5, e T 0 T 2 3]),
  (1323, [e F 0 T 0 6, e T 1 T 1 2, e T 1 T 2 2]),
  (1325, [e T 0 T 0 2, e T 1 T 1 5, e T 1 T 2 3]),
  (1327, [e T 0 T 0 4, e T 1 T 0 2, e F 1 T 2 6]),
  (1329, [e T 0 T 0 2, e T 0 T 1 2, e F 0 T 2 2, e T 0 T 3 4]),
  (1331, [e T 0 T 0 1, e F 1 T 1 3, e F 1 T 2 4, e F 0 T 3 2]),
  (1333, [e T 0 T 0 1, e F 1 T 1 3, e F 1 T 2 4, e T 0 T 3 2]),
  (1335, [e T 0 T 0 2, e T 0 T 1 2, e F 0 T 2 3, e F 0 T 3 3]),
  (1337, [e F 0 T 0 3, e T 1 T 1 1, e F 1 T 2 6]),
  (1339, [e T 0 T 0 2, e T 0 T 1 2, e F 1 T 2 6]),
  (1341, [e T 0 T 0 1, e F 1 T 1 3, e F 1 T 2 6]),
  (1343, [e T 0 T 0 2, e T 0 T 1 2, e F 0 T 2 6]),
  (1345, [e T 0 T 0 2, e T 0 T 1 2, e T 0 T 2 6]),
  (1347, [e T 0 T 0 1, e F 1 T 1 3, e T 1 T 2 6]),
  (1349, [e T 0 T 0 2, e T 0 T 1 2, e T 1 T 2 6]),
  (1351, [e F 0 T 0 3, e T 1 T 1 1, e T 1 T 2 6]),
  (1353, [e T 0 T 0 5, e T 1 T 1 2, e T 1 T 2 3]),
  (1355, [e T 0 T 0 2, e T 1 T 1 4, e F 1 T 2 4]),
  (1357, [e T 0 T 0 2, e T 1 T 1 4, e F 0 T 2 2, e T 0 T 3 2]),
  (1359, [e T 0 T 0 2, e T 1 T 1 4, e F 0 T 2 4]),
  (1361, [e T 0 T 0 2, e T 1 T 1 4, e T 0 T 2 4]),
  (1363, [e T 0 T 0 2, e T 1 T 1 4, e T 0 T 2 2, e F 0 T 3 2]),
  (1365, [e T 0 T 0 2, e T 1 T 1 4, e T 1 T 2 4]),
  (1367, [e T 0 T 0 2, e T 1 T 1 4, e T 0 T 2 1, e F 0 T 3 3]),
  (1369, [e T 0 T 0 2, e T 1 T 1 4, e T 0 T 2 1, e T 0 T 3 3]),
  (1371, [e T 0 T 0 2, e T 1 T 1 4, e T 1 T 2 3, e T 0 T 3 1]),
  (1373, [e T 0 T 0 3, e T 1 T 0 1, e F 1 T 2 5, e T 0 T 3 2]),
  (1375, [e T 0 T 0 1, e F 0 T 1 2, e F 0 T 2 2, e F 0 T 3 5]),
  (1377, [e T 0 T 0 4, e T 1 T 1 2, e T 1 T 2 4]),
  (1379, [e T 0 T 0 2, e T 1 T 1 4, e T 1 T 2 2, e F 0 T 3 2]),
  (1381, [e T 0 T 0 2, e T 1 T 1 4, e T 1 T 2 2, e T 0 T 3 2]),
  (1383, [e T 0 T 0 1, e F 0 T 1 2, e F 1 T 2 4, e F 0 T 3 3]),
  (1385, [e T 0 T 0 1, e F 0 T 1 2, e F 1 T 2 4, e T 0 T 3 3]),
  (1387, [e T 0 T 0 2, e T 0 T 1 1, e F 1 T 2 5, e F 0 T 3 2]),
  (1389, [e T 0 T 0 2, e T 0 T 1 1, e F 1 T 2 5, e T 0 T 3 2]),
  (1391, [e T 0 T 0 1, e F 0 T 1 2, e F 0 T 2 3, e F 0 T 3 4]),
  (1393, [e F 0 T 0 4, e T 1 F 0 2, e F 1 T 2 7]),
  (1395, [e T 0 T 0 1, e F 1 T 1 4, e F 2 T 2 5]),
  (1397, [e F 0 T 0 7, e T 1 T 1 1, e F 1 T 2 2]),
  (1399, [e T 0 T 0 3, e T 1 T 0 1, e F 1 T 2 7]),
  (1401, [e F 0 T 0 3, e T 1 T 0 2, e F 1 T 2 7]),
  (1403, [e T 0 T 0 2, e T 0 T 1 1, e F 1 T 2 7]),
  (1405, [e T 0 T 0 1, e F 0 T 1 2, e F 1 T 2 7]),
  (1407, [e T 0 T 0 1, e F 0 T 1 2, e F 0 T 2 7])]

/-- `/repo/assets/asc-12.yaml`, entries 704–767 -/
def part11 : List (Nat × Asc) := [
  (1409, [e T 0 T 0 1, e F 0 T 1 2, e T 0 T 2 7]),
  (1411, [e T 0 T 0 1, e F 0 T 1 2, e T 1 T 2 7]),
  (1413, [e T 0 T 0 2, e T 0 T 1 1, e T 1 T 2 7]),
  (1415, [e F 0 T 0 3, e T 1 T 0 2, e T 1 T 2 7]),
  (1417, [e T 0 T 0 3, e T 1 T 0 1, e T 1 T 2 7]),
  (1419, [e T 0 T 0 7, e T 1 T 1 1, e F 1 T 2 2]),
  (1421, [e T 0 T 0 1, e F 0 T 1 2, e T 1 T 2 5, e T 0 T 3 2]),
  (1423, [e F 0 T 0 4, e T 1 F 0 2, e T 1 T 2 7]),
  (1425, [e F 0 T 0 4, e T 1 T 1 1, e F 1 T 2 5]),
  (1427, [e T 0 T 0 1, e F 1 T 1 4, e F 1 T 2 3, e F 0 T 3 2]),
  (1429, [e T 0 T 0 1, e F 1 T 1 4, e F 1 T 2 3, e T 0 T 3 2]),
  (1431, [e T 0 T 0 3, e T 1 T 1 2, e F 1 T 2 5]),
  (1433, [e T 0 T 0 1, e F 1 T 1 4, e F 0 T 2 2, e T 0 T 3 3]),
  (1435, [e T 0 T 0 2, e T 1 T 1 3, e F 1 T 2 5]),
  (1437, [e T 0 T 0 1, e F 1 T 1 4, e F 1 T 2 5]),
  (1439, [e T 0 T 0 1, e F 1 T 1 4, e F 0 T 2 5]),
  (1441, [e T 0 T 0 1, e F 1 T 1 4, e T 0 T 2 5]),
  (1443, [e T 0 T 0 1, e F 1 T 1 4, e T 1 T 2 5]),
  (1445, [e T 0 T 0 2, e T 1 T 1 3, e T 1 T 2 5]),
  (1447, [e T 0 T 0 1, e F 1 T 1 4, e T 0 T 2 2, e F 0 T 3 3]),
  (1449, [e T 0 T 0 3, e T 1 T 1 2, e T 1 T 2 5]),
  (1451, [e T 0 T 0 1, e F 1 T 1 4, e T 1 T 2 3, e F 0 T 3 2]),
  (1453, [e T 0 T 0 1, e F 1 T 1 4, e T 1 T 2 3, e T 0 T 3 2]),
  (1455, [e F 0 T 0 4, e T 1 T 1 1, e T 1 T 2 5]),
  (1457, [e F 0 T 0 4, e T 1 T 0 3, e F 1 T 2 6]),
  (1459, [e T 0 T 0 1, e F 0 T 1 3, e F 1 T 2 4, e F 0 T 3 2]),
  (1461, [e T 0 T 0 1, e F 0 T 1 3, e F 1 T 2 4, e T 0 T 3 2]),
  (1463, [e T 0 T 0 3, e F 1 T 0 5, e F 1 T 2 6]),
  (1465, [e F 0 T 0 3, e T 1 T 0 4, e F 1 T 2 6]),
  (1467, [e T 0 T 0 1, e F 0 T 1 3, e F 0 T 2 4, e F 0 T 3 2]),
  (1469, [e T 0 T 0 1, e F 0 T 1 3, e F 1 T 2 6]),
  (1471, [e T 0 T 0 1, e F 0 T 1 3, e F 0 T 2 6]),
  (1473, [e T 0 T 0 1, e F 0 T 1 3, e T 0 T 2 6]),
  (1475, [e T 0 T 0 1, e F 0 T 1 3, e T 1 T 2 6]),
  (1477, [e T 0 T 0 1, e F 0 T 1 3, e T 0 T 2 4, e T 0 T 3 2]),
  (1479, [e F 0 T 0 3, e T 1 T 0 4, e T 1 T 2 6]),
  (1481, [e T 0 T 0 3, e F 1 T 0 5, e T 1 T 2 6]),
  (1483, [e T 0 T 0 1, e F 1 T 1 5, e F 0 T 2 2, e F 0 T 3 2]),
  (1485, [e T 0 T 0 1, e F 1 T 1 5, e F 1 T 2 4]),
  (1487, [e T 0 T 0 1, e F 1 T 1 5, e F 0 T 2 4]),
  (1489, [e T 0 T 0 1, e F 1 T 1 5, e T 0 T 2 4]),
  (1491, [e T 0 T 0 1, e F 1 T 1 5, e T 1 T 2 4]),
  (1493, [e T 0 T 0 1, e F 1 T 1 5, e T 0 T 2 2, e T 0 T 3 2]),
  (1495, [e T 0 T 0 6, e T 1 T 1 1, e F 1 T 2 3]),
  (1497, [e T 0 T 0 1, e F 0 T 1 4, e F 0 T 2 2, e T 0 T 3 3]),
  (1499, [e T 0 T 0 1, e F 0 T 1 4, e F 0 T 2 3, e F 0 T 3 2]),
  (1501, [e T 0 T 0 1, e F 0 T 1 4, e F 1 T 2 5]),
  (1503, [e T 0 T 0 1, e F 0 T 1 4, e F 0 T 2 5]),
  (1505, [e T 0 T 0 1, e F 0 T 1 4, e T 0 T 2 5]),
  (1507, [e T 0 T 0 1, e F 0 T 1 4, e T 1 T 2 5]),
  (1509, [e T 0 T 0 1, e F 1 T 1 6, e F 1 T 2 3]),
  (1511, [e T 0 T 0 1, e F 1 T 1 6, e F 0 T 2 3]),
  (1513, [e T 0 T 0 1, e F 1 T 1 6, e T 0 T 2 3]),
  (1515, [e T 0 T 0 1, e F 1 T 1 6, e T 1 T 2 3]),
  (1517, [e T 0 T 0 1, e F 0 T 1 5, e F 1 T 2 4]),
  (1519, [e T 0 T 0 1, e F 0 T 1 5, e F 0 T 2 4]),
  (1521, [e T 0 T 0 1, e F 0 T 1 5, e T 0 T 2 4]),
  (1523, [e T 0 T 0 1, e F 1 T 1 7, e F 0 T 2 2]),
  (1525, [e T 0 T 0 1, e F 1 T 1 7, e T 0 T 2 2]),
  (1527, [e T 0 T 0 1, e F 0 T 1 6, e F 0 T 2 3]),
  (1529, [e T 0 T 0 1, e F 0 T 1 6, e T 0 T 2 3]),
  (1531, [e T 0 T 0 1, e F 0 T 1 7, e F 0 T 2 2]),
  (1533, [e T 0 T 0 1, e F 1 T 1 9]),
  (1535, [e T 0 T 0 1, e F 0 T 1 9])]

/-- `/repo/assets/asc-12.yaml`, entries 768–831 -/
def part12 : List (Nat × Asc) := [
  (1537, [e T 0 T 0 1, e T 0 T 1 9]),
  (1539, [e T 0 T 0 1, e T 1 T 1 9]),
  (1541, [e T 0 T 0 1, e T 0 T 1 7, e T 0 T 2 2]),
  (1543, [e T 0 T 0 1, e T 0 T 1 6, e F 0 T 2 3]),
  (1545, [e T 0 T 0 1, e T 0 T 1 6, e T 0 T 2 3]),
  (1547, [e T 0 T 0 1, e T 1 T 1 7, e F 0 T 2 2]),
  (1549, [e T 0 T 0 1, e T 1 T 1 7, e T 0 T 2 2]),
  (1551, [e T 0 T 0 1, e T 0 T 1 5, e F 0 T 2 4]),
  (1553, [e T 0 T 0 1, e T 0 T 1 5, e T 0 T 2 4]),
  (1555, [e T 0 T 0 1, e T 0 T 1 5, e T 1 T 2 4]),
  (1557, [e T 0 T 0 1, e T 1 T 1 6, e F 1 T 2 3]),
  (1559, [e T 0 T 0 1, e T 1 T 1 6, e F 0 T 2 3]),
  (1561, [e T 0 T 0 1, e T 1 T 1 6, e T 0 T 2 3]),
  (1563, [e T 0 T 0 1, e T 1 T 1 6, e T 1 T 2 3]),
  (1565, [e T 0 T 0 1, e T 0 T 1 4, e F 1 T 2 5]),
  (1567, [e T 0 T 0 1, e T 0 T 1 4, e F 0 T 2 5]),
  (1569, [e T 0 T 0 1, e T 0 T 1 4, e T 0 T 2 5]),
  (1571, [e T 0 T 0 1, e T 0 T 1 4, e T 1 T 2 5]),
  (1573, [e T 0 T 0 1, e T 0 T 1 4, e T 0 T 2 3, e T 0 T 3 2]),
  (1575, [e F 0 T 0 3, e F 1 T 1 3, e T 1 T 2 5]),
  (1577, [e T 0 T 0 1, e T 0 T 1 4, e T 0 T 2 2, e T 0 T 3 3]),
  (1579, [e T 0 T 0 1, e T 1 T 1 5, e F 0 T 2 2, e F 0 T 3 2]),
  (1581, [e T 0 T 0 1, e T 1 T 1 5, e F 1 T 2 4]),
  (1583, [e T 0 T 0 1, e T 1 T 1 5, e F 0 T 2 4]),
  (1585, [e T 0 T 0 1, e T 1 T 1 5, e T 0 T 2 4]),
  (1587, [e T 0 T 0 1, e T 1 T 1 5, e T 1 T 2 4]),
  (1589, [e T 0 T 0 1, e T 1 T 1 5, e T 0 T 2 2, e T 0 T 3 2]),
  (1591, [e T 0 T 0 3, e T 1 T 0 4, e F 1 T 2 6]),
  (1593, [e F 0 T 0 3, e F 1 T 0 5, e F 1 T 2 6]),
  (1595, [e T 0 T 0 2, e T 1 T 1 2, e F 1 T 2 6]),
  (1597, [e T 0 T 0 1, e T 0 T 1 3, e F 1 T 2 6]),
  (1599, [e T 0 T 0 1, e T 0 T 1 3, e F 0 T 2 6]),
  (1601, [e T 0 T 0 1, e T 0 T 1 3, e T 0 T 2 6]),
  (1603, [e T 0 T 0 1, e T 0 T 1 3, e T 1 T 2 6]),
  (1605, [e T 0 T 0 2, e T 1 T 1 2, e T 1 T 2 6]),
  (1607, [e F 0 T 0 3, e F 1 T 0 5, e T 1 T 2 6]),
  (1609, [e T 0 T 0 3, e T 1 T 0 4, e T 1 T 2 6]),
  (1611, [e T 0 T 0 1, e T 0 T 1 3, e T 1 T 2 4, e F 0 T 3 2]),
  (1613, [e T 0 T 0 1, e T 0 T 1 3, e T 1 T 2 4, e T 0 T 3 2]),
  (1615, [e T 0 T 0 4, e T 1 T 1 1, e F 1 T 2 5]),
  (1617, [e T 0 T 0 4, e T 1 T 0 3, e T 1 T 2 6]),
  (1619, [e T 0 T 0 1, e T 1 T 1 4, e F 1 T 2 3, e F 0 T 3 2]),
  (1621, [e T 0 T 0 1, e T 1 T 1 4, e F 1 T 2 3, e T 0 T 3 2]),
  (1623, [e T 0 T 0 1, e T 1 T 1 4, e F 0 T 2 2, e F 0 T 3 3]),
  (1625, [e T 0 T 0 6, e T 1 T 1 1, e T 1 T 2 3]),
  (1627, [e T 0 T 0 1, e T 1 T 1 4, e F 0 T 2 3, e F 0 T 3 2]),
  (1629, [e T 0 T 0 1, e T 1 T 1 4, e F 1 T 2 5]),
  (1631, [e T 0 T 0 1, e T 1 T 1 4, e F 0 T 2 5]),
  (1633, [e T 0 T 0 1, e T 1 T 1 4, e T 0 T 2 5]),
  (1635, [e T 0 T 0 1, e T 1 T 1 4, e T 1 T 2 5]),
  (1637, [e T 0 T 0 1, e T 1 T 1 4, e T 0 T 2 3, e T 0 T 3 2]),
  (1639, [e T 0 T 0 1, e T 1 T 1 4, e T 0 T 2 2, e F 0 T 3 3]),
  (1641, [e T 0 T 0 1, e T 1 T 1 4, e T 0 T 2 2, e T 0 T 3 3]),
  (1643, [e T 0 T 0 1, e T 1 T 1 4, e T 1 T 2 3, e F 0 T 3 2]),
  (1645, [e T 0 T 0 1, e T 1 T 1 4, e T 1 T 2 3, e T 0 T 3 2]),
  (1647, [e T 0 T 0 4, e T 1 F 0 2, e F 1 T 2 7]),
  (1649, [e T 0 T 0 4, e T 1 T 1 1, e T 1 T 2 5]),
  (1651, [e F 0 T 0 7, e T 1 T 1 1, e T 1 T 2 2]),
  (1653, [e T 0 T 0 1, e T 0 T 1 2, e F 1 T 2 5, e T 0 T 3 2]),
  (1655, [e T 0 T 0 3, e T 1 T 0 2, e F 1 T 2 7]),
  (1657, [e F 0 T 0 3, e F 0 T 1 1, e F 1 T 2 7]),
  (1659, [e T 0 T 0 2, e T 1 T 0 3, e F 1 T 2 7]),
  (1661, [e T 0 T 0 1, e T 0 T 1 2, e F 1 T 2 7]),
  (1663, [e T 0 T 0 1, e T 0 T 1 2, e F 0 T 2 7])]

/-- `/repo/assets/asc-12.yaml`, entries 832–895 -/
def part13 : List (Nat × Asc) := [
  (1665, [e T 0 T 0 1, e T 0 T 1 2, e T 0 T 2 7]),
  (1667, [e T 0 T 0 1, e T 0 T 1 2, e T 1 T 2 7]),
  (1669, [e T 0 T 0 2, e T 1 T 0 3, e T 1 T 2 7]),
  (1671, [e F 0 T 0 3, e F 0 T 1 1, e T 1 T 2 7]),
  (1673, [e T 0 T 0 3, e T 1 T 0 2, e T 1 T 2 7]),
  (1675, [e F 0 T 0 3, e F 1 T 1 4, e F 0 T 2 2, e F 0 T 3 2]),
  (1677, [e T 0 T 0 7, e T 1 T 1 1, e T 1 T 2 2]),
  (1679, [e F 0 T 0 3, e F 1 T 1 4, e F 0 T 2 4]),
  (1681, [e F 0 T 0 3, e F 1 T 1 4, e T 0 T 2 4]),
  (1683, [e T 0 T 0 1, e T 1 T 1 4, e T 2 T 2 5]),
  (1685, [e F 0 T 0 3, e F 1 T 1 4, e T 0 T 2 2, e T 0 T 3 2]),
  (1687, [e F 0 T 0 3, e F 1 T 1 4, e T 1 T 2 4]),
  (1689, [e F 0 T 0 3, e F 1 T 1 4, e T 0 T 2 1, e T 0 T 3 3]),
  (1691, [e T 0 T 0 3, e T 1 T 1 1, e F 1 T 2 4, e F 0 T 3 2]),
  (1693, [e T 0 T 0 3, e T 1 T 1 1, e F 1 T 2 4, e T 0 T 3 2]),
  (1695, [e F 0 T 0 4, e F 1 T 1 3, e T 1 T 2 4]),
  (1697, [e F 0 T 0 5, e T 1 F 0 2, e F 1 T 2 6]),
  (1699, [e T 0 T 0 3, e T 1 T 0 2, e T 1 T 2 5, e F 0 T 3 2]),
  (1701, [e F 0 T 0 6, e F 1 T 1 3, e F 1 T 2 2]),
  (1703, [e T 0 T 0 1, e T 1 T 1 3, e F 1 T 2 3, e F 0 T 3 3]),
  (1705, [e F 0 T 0 5, e F 1 T 1 3, e F 1 T 2 3]),
  (1707, [e T 0 T 0 2, e F 1 T 0 5, e F 1 T 2 4, e F 0 T 3 2]),
  (1709, [e T 0 T 0 2, e F 1 T 0 5, e F 1 T 2 4, e T 0 T 3 2]),
  (1711, [e F 0 T 0 3, e F 0 T 1 2, e F 0 T 2 2, e F 0 T 3 4]),
  (1713, [e F 0 T 0 3, e F 0 T 1 2, e F 0 T 2 2, e T 0 T 3 4]),
  (1715, [e T 0 T 0 1, e T 1 T 1 3, e F 1 T 2 4, e F 0 T 3 2]),
  (1717, [e T 0 T 0 1, e T 1 T 1 3, e F 1 T 2 4, e T 0 T 3 2]),
  (1719, [e T 0 T 0 3, e T 1 T 1 1, e F 1 T 2 6]),
  (1721, [e F 0 T 0 3, e F 0 T 1 2, e F 1 T 2 6]),
  (1723, [e T 0 T 0 2, e F 1 T 0 5, e F 1 T 2 6]),
  (1725, [e T 0 T 0 1, e T 1 T 1 3, e F 1 T 2 6]),
  (1727, [e F 0 T 0 3, e F 0 T 1 2, e F 0 T 2 6]),
  (1729, [e F 0 T 0 3, e F 0 T 1 2, e T 0 T 2 6]),
  (1731, [e T 0 T 0 1, e T 1 T 1 3, e T 1 T 2 6]),
  (1733, [e T 0 T 0 2, e F 1 T 0 5, e T 1 T 2 6]),
  (1735, [e F 0 T 0 3, e F 1 T 1 5, e F 0 T 2 3]),
  (1737, [e F 0 T 0 3, e F 1 T 1 5, e T 0 T 2 3]),
  (1739, [e F 0 T 0 3, e F 1 T 1 5, e T 0 T 2 1, e F 0 T 3 2]),
  (1741, [e F 0 T 0 3, e F 1 T 1 5, e T 0 T 2 1, e T 0 T 3 2]),
  (1743, [e F 0 T 0 3, e F 1 T 1 5, e T 1 T 2 3]),
  (1745, [e F 0 T 0 3, e F 0 T 1 2, e T 0 T 2 2, e T 0 T 3 4]),
  (1747, [e T 0 T 0 2, e F 1 T 0 5, e T 1 T 2 4, e F 0 T 3 2]),
  (1749, [e T 0 T 0 2, e F 1 T 0 5, e T 1 T 2 4, e T 0 T 3 2]),
  (1751, [e T 0 T 0 3, e F 1 T 0 6, e F 1 T 2 5]),
  (1753, [e F 0 T 0 3, e F 0 T 1 3, e F 1 T 2 5]),
  (1755, [e T 0 T 0 6, e F 1 T 1 3, e F 1 T 2 2]),
  (1757, [e F 0 T 0 3, e F 1 T 1 6, e F 1 T 2 2]),
  (1759, [e F 0 T 0 3, e F 0 T 1 3, e F 0 T 2 5]),
  (1761, [e F 0 T 0 3, e F 0 T 1 3, e T 0 T 2 5]),
  (1763, [e F 0 T 0 3, e F 1 T 1 6, e F 0 T 2 2]),
  (1765, [e F 0 T 0 3, e F 1 T 1 6, e T 0 T 2 2]),
  (1767, [e F 0 T 0 3, e F 0 T 1 3, e T 1 T 2 5]),
  (1769, [e T 0 T 0 3, e F 1 T 0 6, e T 1 T 2 5]),
  (1771, [e F 0 T 0 3, e F 1 T 1 6, e T 1 T 2 2]),
  (1773, [e F 0 T 0 3, e F 0 T 1 4, e F 0 T 2 2, e T 0 T 3 2]),
  (1775, [e F 0 T 0 3, e F 0 T 1 4, e F 0 T 2 4]),
  (1777, [e F 0 T 0 3, e F 0 T 1 4, e T 0 T 2 4]),
  (1779, [e F 0 T 0 3, e F 1 T 1 7, e T 0 T 2 1]),
  (1781, [e F 0 T 0 3, e F 0 T 1 6, e F 1 T 2 2]),
  (1783, [e F 0 T 0 3, e F 0 T 1 5, e F 0 T 2 3]),
  (1785, [e F 0 T 0 3, e F 1 T 1 8]),
  (1787, [e F 0 T 0 3, e F 0 T 1 6, e F 0 T 2 2]),
  (1789, [e F 0 T 0 3, e F 0 T 1 6, e T 0 T 2 2]),
  (1791, [e F 0 T 0 3, e F 0 T 1 8])]

/-- `/repo/assets/asc-12.yaml`, entries 896–959 -/
def part14 : List (Nat × Asc) := [
  (1793, [e F 0 T 0 3, e T 0 T 1 8]),
  (1795, [e F 0 T 0 3, e T 0 T 1 6, e F 0 T 2 2]),
  (1797, [e F 0 T 0 3, e T 0 T 1 6, e T 0 T 2 2]),
  (1799, [e F 0 T 0 3, e T 1 T 1 8]),
  (1801, [e F 0 T 0 3, e T 0 T 1 5, e T 0 T 2 3]),
  (1803, [e F 0 T 0 3, e T 0 T 1 6, e T 1 T 2 2]),
  (1805, [e F 0 T 0 3, e T 1 T 1 7, e F 0 T 2 1]),
  (1807, [e F 0 T 0 3, e T 0 T 1 4, e F 0 T 2 4]),
  (1809, [e F 0 T 0 3, e T 0 T 1 4, e T 0 T 2 4]),
  (1811, [e F 0 T 0 3, e T 0 T 1 4, e T 0 T 2 2, e F 0 T 3 2]),
  (1813, [e F 0 T 0 3, e T 1 T 1 6, e F 1 T 2 2]),
  (1815, [e F 0 T 0 3, e T 0 T 1 4, e T 1 T 2 4]),
  (1817, [e F 0 T 0 3, e T 0 T 1 3, e F 1 T 2 5]),
  (1819, [e F 0 T 0 3, e T 1 T 1 6, e F 0 T 2 2]),
  (1821, [e F 0 T 0 3, e T 1 T 1 6, e T 0 T 2 2]),
  (1823, [e F 0 T 0 3, e T 0 T 1 3, e F 0 T 2 5]),
  (1825, [e F 0 T 0 3, e T 0 T 1 3, e T 0 T 2 5]),
  (1827, [e F 0 T 0 3, e T 1 T 1 6, e T 1 T 2 2]),
  (1829, [e F 0 T 0 5, e F 1 T 1 4, e F 1 T 2 2]),
  (1831, [e F 0 T 0 3, e T 0 T 1 3, e T 1 T 2 5]),
  (1833, [e F 0 T 0 3, e T 0 T 1 3, e T 0 T 2 2, e T 0 T 3 3]),
  (1835, [e F 0 T 0 3, e T 0 T 1 4, e T 1 T 2 2, e F 0 T 3 2]),
  (1837, [e F 0 T 0 3, e T 0 T 1 3, e T 1 T 2 4, e F 0 T 3 1]),
  (1839, [e F 0 T 0 3, e T 0 T 1 2, e F 0 T 2 2, e F 0 T 3 4]),
  (1841, [e F 0 T 0 3, e T 1 T 1 5, e F 1 T 2 3]),
  (1843, [e F 0 T 0 3, e T 1 T 1 5, e F 0 T 2 1, e F 0 T 3 2]),
  (1845, [e F 0 T 0 4, e F 1 T 1 5, e F 1 T 2 2]),
  (1847, [e F 0 T 0 3, e T 1 T 1 5, e F 0 T 2 3]),
  (1849, [e F 0 T 0 3, e T 1 T 1 5, e T 0 T 2 3]),
  (1851, [e F 0 T 0 3, e T 0 T 1 2, e F 0 T 2 4, e F 0 T 3 2]),
  (1853, [e T 0 T 0 1, e F 1 T 0 5, e F 1 T 2 6]),
  (1855, [e F 0 T 0 3, e T 0 T 1 2, e F 0 T 2 6]),
  (1857, [e F 0 T 0 3, e T 0 T 1 2, e T 0 T 2 6]),
  (1859, [e F 0 T 0 4, e F 1 T 1 5, e F 0 T 2 2]),
  (1861, [e F 0 T 0 4, e F 1 T 1 5, e T 0 T 2 2]),
  (1863, [e F 0 T 0 3, e T 0 T 1 2, e T 1 T 2 6]),
  (1865, [e F 0 T 0 3, e T 0 T 1 2, e T 0 T 2 3, e T 0 T 3 3]),
  (1867, [e T 0 T 0 1, e F 1 T 0 5, e T 1 T 2 4, e F 0 T 3 2]),
  (1869, [e T 0 T 0 1, e F 1 T 0 5, e T 1 T 2 4, e T 0 T 3 2]),
  (1871, [e F 0 T 0 4, e F 0 T 1 1, e T 1 T 2 6]),
  (1873, [e F 0 T 0 4, e F 0 T 1 2, e F 1 T 2 5]),
  (1875, [e F 0 T 0 4, e F 1 T 1 5, e T 1 T 2 2]),
  (1877, [e T 0 T 0 2, e F 1 T 0 6, e F 1 T 2 4, e F 0 T 3 1]),
  (1879, [e F 0 T 0 4, e F 0 T 1 2, e F 0 T 2 2, e F 0 T 3 3]),
  (1881, [e T 0 T 0 5, e F 1 T 1 3, e T 1 T 2 3]),
  (1883, [e T 0 T 0 2, e F 1 T 0 6, e F 1 T 2 5]),
  (1885, [e T 0 T 0 6, e F 1 T 1 3, e T 1 T 2 2]),
  (1887, [e F 0 T 0 4, e F 0 T 1 2, e F 0 T 2 5]),
  (1889, [e F 0 T 0 4, e F 0 T 1 2, e T 0 T 2 5]),
  (1891, [e F 0 T 0 4, e F 1 T 1 6, e T 0 T 2 1]),
  (1893, [e T 0 T 0 2, e F 1 T 0 6, e T 1 T 2 5]),
  (1895, [e T 0 T 0 3, e F 1 T 0 7, e F 1 T 2 4]),
  (1897, [e F 0 T 0 3, e T 1 T 1 4, e F 1 T 2 4]),
  (1899, [e F 0 T 0 4, e F 0 T 1 3, e F 0 T 2 2, e F 0 T 3 2]),
  (1901, [e F 0 T 0 4, e F 0 T 1 5, e F 1 T 2 2]),
  (1903, [e F 0 T 0 4, e F 0 T 1 3, e F 0 T 2 4]),
  (1905, [e F 0 T 0 4, e F 1 T 1 7]),
  (1907, [e F 0 T 0 4, e T 0 T 1 6, e F 1 T 2 1]),
  (1909, [e F 0 T 0 4, e T 0 T 1 5, e F 1 T 2 2]),
  (1911, [e F 0 T 0 4, e F 0 T 1 4, e F 0 T 2 3]),
  (1913, [e F 0 T 0 4, e F 0 T 1 4, e T 0 T 2 3]),
  (1915, [e F 0 T 0 4, e F 0 T 1 5, e F 0 T 2 2]),
  (1917, [e F 0 T 0 4, e F 0 T 1 5, e T 0 T 2 2]),
  (1919, [e F 0 T 0 4, e F 0 T 1 7])]

/-- `/repo/assets/asc-12.yaml`, entries 960–1023 -/
def part15 : List (Nat × Asc) := [
  (1921, [e F 0 T 0 4, e T 0 T 1 7]),
  (1923, [e F 0 T 0 4, e T 0 T 1 5, e F 0 T 2 2]),
  (1925, [e F 0 T 0 4, e T 0 T 1 5, e T 0 T 2 2]),
  (1927, [e F 0 T 0 4, e T 0 T 1 4, e F 0 T 2 3]),
  (1929, [e F 0 T 0 4, e T 0 T 1 4, e T 0 T 2 3]),
  (1931, [e F 0 T 0 4, e F 0 T 1 5, e T 1 T 2 2]),
  (1933, [e F 0 T 0 4, e F 0 T 1 6, e T 1 T 2 1]),
  (1935, [e F 0 T 0 4, e T 1 T 1 7]),
  (1937, [e F 0 T 0 4, e T 0 T 1 3, e T 0 T 2 4]),
  (1939, [e F 0 T 0 4, e T 0 T 1 5, e T 1 T 2 2]),
  (1941, [e F 0 T 0 4, e T 0 T 1 3, e T 0 T 2 2, e T 0 T 3 2]),
  (1943, [e F 0 T 0 3, e F 1 T 0 7, e T 1 T 2 4]),
  (1945, [e F 0 T 0 5, e F 0 T 1 3, e F 1 T 2 3]),
  (1947, [e T 0 T 0 5, e F 1 T 1 4, e F 1 T 2 2]),
  (1949, [e F 0 T 0 4, e T 1 T 1 6, e F 0 T 2 1]),
  (1951, [e F 0 T 0 4, e T 0 T 1 2, e F 0 T 2 5]),
  (1953, [e F 0 T 0 5, e F 1 T 1 6]),
  (1955, [e T 0 T 0 1, e F 1 T 0 6, e T 1 T 2 5]),
  (1957, [e F 0 T 0 5, e T 0 T 1 4, e F 1 T 2 2]),
  (1959, [e F 0 T 0 4, e T 0 T 1 2, e T 0 T 2 2, e F 0 T 3 3]),
  (1961, [e F 0 T 0 5, e T 0 T 1 3, e F 1 T 2 3]),
  (1963, [e T 0 T 0 2, e F 1 T 0 7, e F 1 T 2 4]),
  (1965, [e F 0 T 0 4, e T 1 T 1 5, e F 1 T 2 2]),
  (1967, [e F 0 T 0 5, e F 0 T 1 2, e F 0 T 2 4]),
  (1969, [e F 0 T 0 5, e F 0 T 1 2, e T 0 T 2 4]),
  (1971, [e F 0 T 0 5, e F 0 T 1 2, e T 0 T 2 2, e F 0 T 3 2]),
  (1973, [e T 0 T 0 2, e F 1 T 0 7, e T 1 T 2 4]),
  (1975, [e F 0 T 0 5, e F 0 T 1 3, e F 0 T 2 3]),
  (1977, [e F 0 T 0 5, e F 0 T 1 3, e T 0 T 2 3]),
  (1979, [e F 0 T 0 5, e F 0 T 1 4, e F 0 T 2 2]),
  (1981, [e F 0 T 0 5, e F 0 T 1 4, e T 0 T 2 2]),
  (1983, [e F 0 T 0 5, e F 0 T 1 6]),
  (1985, [e F 0 T 0 5, e T 0 T 1 6]),
  (1987, [e F 0 T 0 5, e T 0 T 1 4, e F 0 T 2 2]),
  (1989, [e F 0 T 0 5, e T 0 T 1 4, e T 0 T 2 2]),
  (1991, [e F 0 T 0 5, e T 0 T 1 3, e F 0 T 2 3]),
  (1993, [e F 0 T 0 5, e T 0 T 1 3, e T 0 T 2 3]),
  (1995, [e F 0 T 0 4, e T 1 T 1 5, e T 1 T 2 2]),
  (1997, [e T 0 T 0 1, e F 1 T 0 7, e F 1 T 2 4]),
  (1999, [e F 0 T 0 5, e T 0 T 1 2, e F 0 T 2 4]),
  (2001, [e F 0 T 0 5, e T 0 T 1 2, e T 0 T 2 4]),
  (2003, [e T 0 T 0 1, e F 1 T 0 7, e T 1 T 2 4]),
  (2005, [e F 0 T 0 5, e T 0 T 1 2, e T 0 T 2 2, e T 0 T 3 2]),
  (2007, [e F 0 T 0 6, e F 0 T 1 2, e F 0 T 2 3]),
  (2009, [e F 0 T 0 6, e F 0 T 1 2, e T 0 T 2 3]),
  (2011, [e F 0 T 0 6, e F 0 T 1 3, e F 0 T 2 2]),
  (2013, [e F 0 T 0 6, e F 0 T 1 3, e T 0 T 2 2]),
  (2015, [e F 0 T 0 6, e F 0 T 1 5]),
  (2017, [e F 0 T 0 6, e T 0 T 1 5]),
  (2019, [e F 0 T 0 6, e T 0 T 1 3, e F 0 T 2 2]),
  (2021, [e F 0 T 0 6, e T 0 T 1 3, e T 0 T 2 2]),
  (2023, [e F 0 T 0 6, e T 0 T 1 2, e F 0 T 2 3]),
  (2025, [e F 0 T 0 6, e T 0 T 1 2, e T 0 T 2 3]),
  (2027, [e F 0 T 0 7, e F 0 T 1 2, e F 0 T 2 2]),
  (2029, [e F 0 T 0 7, e F 0 T 1 2, e T 0 T 2 2]),
  (2031, [e F 0 T 0 7, e F 0 T 1 4]),
  (2033, [e F 0 T 0 7, e T 0 T 1 4]),
  (2035, [e F 0 T 0 7, e T 0 T 1 2, e F 0 T 2 2]),
  (2037, [e F 0 T 0 7, e T 0 T 1 2, e T 0 T 2 2]),
  (2039, [e F 0 T 0 8, e F 0 T 1 3]),
  (2041, [e F 0 T 0 8, e T 0 T 1 3]),
  (2043, [e F 0 T 0 9, e F 0 T 1 2]),
  (2045, [e F 0 T 0 9, e T 0 T 1 2]),
  (2047, [e F 0 T 0 11])]

/-- `/repo/assets/asc-12.yaml`, entries 1024–1087 -/
def part16 : List (Nat × Asc) := [
  (2049, [e T 0 T 0 11]),
  (2051, [e T 0 T 0 9, e F 0 T 1 2]),
  (2053, [e T 0 T 0 9, e T 0 T 1 2]),
  (2055, [e T 0 T 0 8, e F 0 T 1 3]),
  (2057, [e T 0 T 0 8, e T 0 T 1 3]),
  (2059, [e T 0 T 0 7, e F 0 T 1 2, e F 0 T 2 2]),
  (2061, [e T 0 T 0 7, e F 0 T 1 2, e T 0 T 2 2]),
  (2063, [e T 0 T 0 7, e F 0 T 1 4]),
  (2065, [e T 0 T 0 7, e T 0 T 1 4]),
  (2067, [e T 0 T 0 7, e T 0 T 1 2, e F 0 T 2 2]),
  (2069, [e T 0 T 0 7, e T 0 T 1 2, e T 0 T 2 2]),
  (2071, [e T 0 T 0 6, e F 0 T 1 2, e F 0 T 2 3]),
  (2073, [e T 0 T 0 6, e F 0 T 1 2, e T 0 T 2 3]),
  (2075, [e T 0 T 0 6, e F 0 T 1 3, e F 0 T 2 2]),
  (2077, [e T 0 T 0 6, e F 0 T 1 3, e T 0 T 2 2]),
  (2079, [e T 0 T 0 6, e F 0 T 1 5]),
  (2081, [e T 0 T 0 6, e T 0 T 1 5]),
  (2083, [e T 0 T 0 6, e T 0 T 1 3, e F 0 T 2 2]),
  (2085, [e T 0 T 0 6, e T 0 T 1 3, e T 0 T 2 2]),
  (2087, [e T 0 T 0 6, e T 0 T 1 2, e F 0 T 2 3]),
  (2089, [e T 0 T 0 6, e T 0 T 1 2, e T 0 T 2 3]),
  (2091, [e T 0 T 0 4, e F 1 T 1 5, e F 1 T 2 2]),
  (2093, [e T 0 T 0 1, e T 1 T 0 7, e F 1 T 2 4]),
  (2095, [e T 0 T 0 5, e F 0 T 1 2, e F 0 T 2 4]),
  (2097, [e T 0 T 0 5, e F 0 T 1 2, e T 0 T 2 4]),
  (2099, [e T 0 T 0 1, e T 1 T 0 7, e T 1 T 2 4]),
  (2101, [e T 0 T 0 5, e F 0 T 1 2, e T 0 T 2 2, e T 0 T 3 2]),
  (2103, [e T 0 T 0 5, e F 0 T 1 3, e F 0 T 2 3]),
  (2105, [e T 0 T 0 5, e F 0 T 1 3, e T 0 T 2 3]),
  (2107, [e T 0 T 0 5, e F 0 T 1 4, e F 0 T 2 2]),
  (2109, [e T 0 T 0 5, e F 0 T 1 4, e T 0 T 2 2]),
  (2111, [e T 0 T 0 5, e F 0 T 1 6]),
  (2113, [e T 0 T 0 5, e T 0 T 1 6]),
  (2115, [e T 0 T 0 5, e T 0 T 1 4, e F 0 T 2 2]),
  (2117, [e T 0 T 0 5, e T 0 T 1 4, e T 0 T 2 2]),
  (2119, [e T 0 T 0 5, e T 0 T 1 3, e F 0 T 2 3]),
  (2121, [e T 0 T 0 5, e T 0 T 1 3, e T 0 T 2 3]),
  (2123, [e T 0 T 0 2, e T 1 T 0 7, e F 1 T 2 4]),
  (2125, [e T 0 T 0 4, e F 1 T 1 5, e T 1 T 2 2]),
  (2127, [e T 0 T 0 5, e T 0 T 1 2, e F 0 T 2 4]),
  (2129, [e T 0 T 0 5, e T 0 T 1 2, e T 0 T 2 4]),
  (2131, [e T 0 T 0 5, e T 0 T 1 2, e T 0 T 2 2, e F 0 T 3 2]),
  (2133, [e T 0 T 0 2, e T 1 T 0 7, e T 1 T 2 4]),
  (2135, [e T 0 T 0 4, e F 0 T 1 2, e F 0 T 2 2, e F 0 T 3 3]),
  (2137, [e T 0 T 0 5, e F 0 T 1 3, e T 1 T 2 3]),
  (2139, [e F 0 T 0 5, e T 1 T 1 4, e T 1 T 2 2]),
  (2141, [e T 0 T 0 4, e F 1 T 1 6, e F 0 T 2 1]),
  (2143, [e T 0 T 0 4, e F 0 T 1 2, e F 0 T 2 5]),
  (2145, [e T 0 T 0 5, e T 1 T 1 6]),
  (2147, [e T 0 T 0 1, e T 1 T 0 6, e T 1 T 2 5]),
  (2149, [e T 0 T 0 5, e T 0 T 1 4, e T 1 T 2 2]),
  (2151, [e T 0 T 0 3, e F 1 T 1 4, e F 1 T 2 4]),
  (2153, [e F 0 T 0 3, e T 1 T 0 7, e F 1 T 2 4]),
  (2155, [e T 0 T 0 4, e F 0 T 1 5, e F 1 T 2 2]),
  (2157, [e T 0 T 0 4, e F 0 T 1 6, e F 1 T 2 1]),
  (2159, [e T 0 T 0 4, e F 1 T 1 7]),
  (2161, [e T 0 T 0 4, e F 0 T 1 3, e T 0 T 2 4]),
  (2163, [e T 0 T 0 4, e T 0 T 1 5, e F 1 T 2 2]),
  (2165, [e T 0 T 0 4, e F 0 T 1 3, e T 0 T 2 2, e T 0 T 3 2]),
  (2167, [e T 0 T 0 4, e F 0 T 1 4, e F 0 T 2 3]),
  (2169, [e T 0 T 0 4, e F 0 T 1 4, e T 0 T 2 3]),
  (2171, [e T 0 T 0 4, e F 0 T 1 5, e F 0 T 2 2]),
  (2173, [e T 0 T 0 4, e F 0 T 1 5, e T 0 T 2 2]),
  (2175, [e T 0 T 0 4, e F 0 T 1 7])]

/-- `/repo/assets/asc-12.yaml`, entries 1088–1151 -/
def part17 : List (Nat × Asc) := [
  (2177, [e T 0 T 0 4, e T 0 T 1 7]),
  (2179, [e T 0 T 0 4, e T 0 T 1 5, e F 0 T 2 2]),
  (2181, [e T 0 T 0 4, e T 0 T 1 5, e T 0 T 2 2]),
  (2183, [e T 0 T 0 4, e T 0 T 1 4, e F 0 T 2 3]),
  (2185, [e T 0 T 0 4, e T 0 T 1 4, e T 0 T 2 3]),
  (2187, [e T 0 T 0 4, e T 0 T 1 3, e F 0 T 2 2, e F 0 T 3 2]),
  (2189, [e T 0 T 0 4, e F 0 T 1 5, e T 1 T 2 2]),
  (2191, [e T 0 T 0 4, e T 0 T 1 3, e F 0 T 2 4]),
  (2193, [e T 0 T 0 4, e T 1 T 1 7]),
  (2195, [e T 0 T 0 4, e T 0 T 1 6, e T 1 T 2 1]),
  (2197, [e T 0 T 0 4, e T 0 T 1 5, e T 1 T 2 2]),
  (2199, [e T 0 T 0 4, e T 0 T 1 2, e F 0 T 2 2, e F 0 T 3 3]),
  (2201, [e T 0 T 0 3, e T 1 T 0 7, e T 1 T 2 4]),
  (2203, [e T 0 T 0 2, e T 1 T 0 6, e F 1 T 2 5]),
  (2205, [e F 0 T 0 6, e T 1 T 1 3, e F 1 T 2 2]),
  (2207, [e T 0 T 0 4, e T 0 T 1 2, e F 0 T 2 5]),
  (2209, [e T 0 T 0 4, e T 0 T 1 2, e T 0 T 2 5]),
  (2211, [e T 0 T 0 4, e T 1 T 1 6, e T 0 T 2 1]),
  (2213, [e T 0 T 0 2, e T 1 T 0 6, e T 1 T 2 5]),
  (2215, [e T 0 T 0 4, e T 0 T 1 2, e T 0 T 2 2, e F 0 T 3 3]),
  (2217, [e T 0 T 0 4, e T 0 T 1 2, e T 0 T 2 2, e T 0 T 3 3]),
  (2219, [e T 0 T 0 2, e T 1 T 0 6, e T 1 T 2 4, e T 0 T 3 1]),
  (2221, [e T 0 T 0 2, e F 1 T 1 3, e F 1 T 2 4, e T 0 T 3 2]),
  (2223, [e T 0 T 0 3, e F 1 T 1 5, e F 1 T 2 3]),
  (2225, [e T 0 T 0 4, e T 0 T 1 2, e T 1 T 2 5]),
  (2227, [e T 0 T 0 4, e T 1 T 1 5, e F 1 T 2 2]),
  (2229, [e T 0 T 0 3, e F 1 T 1 5, e F 0 T 2 1, e T 0 T 3 2]),
  (2231, [e T 0 T 0 3, e F 1 T 1 5, e F 0 T 2 3]),
  (2233, [e T 0 T 0 3, e F 1 T 1 5, e T 0 T 2 3]),
  (2235, [e T 0 T 0 2, e F 1 T 1 3, e F 1 T 2 6]),
  (2237, [e T 0 T 0 1, e T 1 T 0 5, e F 1 T 2 6]),
  (2239, [e T 0 T 0 3, e F 0 T 1 2, e F 0 T 2 6]),
  (2241, [e T 0 T 0 3, e F 0 T 1 2, e T 0 T 2 6]),
  (2243, [e T 0 T 0 4, e T 1 T 1 5, e F 0 T 2 2]),
  (2245, [e T 0 T 0 4, e T 1 T 1 5, e T 0 T 2 2]),
  (2247, [e F 0 T 0 3, e T 1 T 1 2, e T 1 T 2 6]),
  (2249, [e T 0 T 0 3, e F 0 T 1 2, e T 1 T 2 6]),
  (2251, [e T 0 T 0 1, e T 1 T 0 5, e T 1 T 2 4, e F 0 T 3 2]),
  (2253, [e T 0 T 0 1, e T 1 T 0 5, e T 1 T 2 4, e T 0 T 3 2]),
  (2255, [e T 0 T 0 3, e F 0 T 1 2, e T 0 T 2 2, e F 0 T 3 4]),
  (2257, [e T 0 T 0 4, e T 0 T 1 1, e T 1 T 2 6]),
  (2259, [e T 0 T 0 3, e F 1 T 1 6, e F 1 T 2 2]),
  (2261, [e T 0 T 0 4, e T 1 T 1 5, e T 1 T 2 2]),
  (2263, [e T 0 T 0 3, e F 0 T 1 3, e F 1 T 2 5]),
  (2265, [e F 0 T 0 3, e T 1 T 0 6, e F 1 T 2 5]),
  (2267, [e T 0 T 0 3, e F 1 T 1 6, e F 0 T 2 2]),
  (2269, [e T 0 T 0 3, e F 1 T 1 6, e T 0 T 2 2]),
  (2271, [e T 0 T 0 3, e F 0 T 1 3, e F 0 T 2 5]),
  (2273, [e T 0 T 0 3, e F 0 T 1 3, e T 0 T 2 5]),
  (2275, [e T 0 T 0 6, e T 1 T 1 3, e F 1 T 2 2]),
  (2277, [e T 0 T 0 3, e F 1 T 1 6, e T 1 T 2 2]),
  (2279, [e T 0 T 0 3, e F 0 T 1 4, e F 1 T 2 4]),
  (2281, [e T 0 T 0 3, e F 0 T 1 3, e T 1 T 2 5]),
  (2283, [e T 0 T 0 3, e F 0 T 1 4, e F 0 T 2 2, e F 0 T 3 2]),
  (2285, [e T 0 T 0 3, e F 1 T 1 7, e F 0 T 2 1]),
  (2287, [e T 0 T 0 3, e F 0 T 1 4, e F 0 T 2 4]),
  (2289, [e T 0 T 0 3, e F 0 T 1 4, e T 0 T 2 4]),
  (2291, [e T 0 T 0 3, e F 0 T 1 6, e F 1 T 2 2]),
  (2293, [e T 0 T 0 3, e F 0 T 1 7, e F 1 T 2 1]),
  (2295, [e T 0 T 0 3, e F 1 T 1 8]),
  (2297, [e T 0 T 0 3, e F 0 T 1 5, e T 0 T 2 3]),
  (2299, [e T 0 T 0 3, e F 0 T 1 6, e F 0 T 2 2]),
  (2301, [e T 0 T 0 3, e F 0 T 1 6, e T 0 T 2 2]),
  (2303, [e T 0 T 0 3, e F 0 T 1 8])]

/-- `/repo/assets/asc-12.yaml`, entries 1152–1215 -/
def part18 : List (Nat × Asc) := [
  (2305, [e T 0 T 0 3, e T 0 T 1 8]),
  (2307, [e T 0 T 0 3, e T 0 T 1 6, e F 0 T 2 2]),
  (2309, [e T 0 T 0 3, e T 0 T 1 6, e T 0 T 2 2]),
  (2311, [e T 0 T 0 3, e T 0 T 1 5, e F 0 T 2 3]),
  (2313, [e T 0 T 0 3, e T 1 T 1 8]),
  (2315, [e T 0 T 0 3, e T 0 T 1 7, e T 1 T 2 1]),
  (2317, [e T 0 T 0 3, e T 0 T 1 6, e T 1 T 2 2]),
  (2319, [e T 0 T 0 3, e T 0 T 1 4, e F 0 T 2 4]),
  (2321, [e T 0 T 0 3, e T 0 T 1 4, e T 0 T 2 4]),
  (2323, [e T 0 T 0 3, e T 1 T 1 7, e T 0 T 2 1]),
  (2325, [e T 0 T 0 2, e F 1 T 1 4, e F 2 T 2 5]),
  (2327, [e T 0 T 0 3, e T 0 T 1 3, e F 1 T 2 5]),
  (2329, [e T 0 T 0 3, e T 0 T 1 4, e T 1 T 2 4]),
  (2331, [e T 0 T 0 3, e T 1 T 1 6, e F 1 T 2 2]),
  (2333, [e T 0 T 0 3, e T 0 T 1 3, e F 0 T 2 3, e T 0 T 3 2]),
  (2335, [e T 0 T 0 3, e T 0 T 1 3, e F 0 T 2 5]),
  (2337, [e T 0 T 0 3, e T 0 T 1 3, e T 0 T 2 5]),
  (2339, [e T 0 T 0 3, e T 1 T 1 6, e F 0 T 2 2]),
  (2341, [e T 0 T 0 3, e T 1 T 1 6, e T 0 T 2 2]),
  (2343, [e T 0 T 0 5, e T 1 T 1 3, e F 1 T 2 3]),
  (2345, [e T 0 T 0 3, e T 0 T 1 3, e T 1 T 2 5]),
  (2347, [e T 0 T 0 2, e T 1 T 0 5, e F 1 T 2 4, e F 0 T 3 2]),
  (2349, [e T 0 T 0 3, e T 1 T 1 6, e T 1 T 2 2]),
  (2351, [e T 0 T 0 3, e T 0 T 1 2, e F 0 T 2 2, e F 0 T 3 4]),
  (2353, [e T 0 T 0 3, e T 0 T 1 2, e F 0 T 2 2, e T 0 T 3 4]),
  (2355, [e T 0 T 0 3, e T 0 T 1 3, e T 1 T 2 4, e T 0 T 3 1]),
  (2357, [e T 0 T 0 2, e T 1 T 0 5, e F 1 T 2 5, e F 0 T 3 1]),
  (2359, [e T 0 T 0 3, e T 0 T 1 2, e F 1 T 2 6]),
  (2361, [e T 0 T 0 3, e T 0 T 1 2, e F 0 T 2 3, e T 0 T 3 3]),
  (2363, [e T 0 T 0 2, e T 1 T 0 5, e F 1 T 2 6]),
  (2365, [e T 0 T 0 3, e T 0 T 1 2, e F 0 T 2 4, e T 0 T 3 2]),
  (2367, [e T 0 T 0 3, e T 0 T 1 2, e F 0 T 2 6]),
  (2369, [e T 0 T 0 3, e T 0 T 1 2, e T 0 T 2 6]),
  (2371, [e T 0 T 0 3, e T 0 T 1 2, e T 0 T 2 4, e F 0 T 3 2]),
  (2373, [e T 0 T 0 2, e T 1 T 0 5, e T 1 T 2 6]),
  (2375, [e T 0 T 0 3, e T 1 T 1 5, e F 0 T 2 3]),
  (2377, [e T 0 T 0 3, e T 1 T 1 5, e T 0 T 2 3]),
  (2379, [e T 0 T 0 3, e T 1 T 1 5, e T 0 T 2 1, e F 0 T 3 2]),
  (2381, [e T 0 T 0 3, e T 1 T 1 5, e T 0 T 2 1, e T 0 T 3 2]),
  (2383, [e T 0 T 0 3, e T 0 T 1 2, e T 0 T 2 2, e F 0 T 3 4]),
  (2385, [e T 0 T 0 3, e T 1 T 1 5, e T 1 T 2 3]),
  (2387, [e T 0 T 0 2, e T 1 T 0 5, e T 1 T 2 4, e F 0 T 3 2]),
  (2389, [e T 0 T 0 2, e T 1 T 0 5, e T 1 T 2 4, e T 0 T 3 2]),
  (2391, [e T 0 T 0 2, e F 1 T 1 4, e F 0 T 2 2, e F 0 T 3 3]),
  (2393, [e T 0 T 0 2, e F 1 T 1 4, e F 0 T 2 2, e T 0 T 3 3]),
  (2395, [e T 0 T 0 2, e F 1 T 1 4, e F 1 T 2 5]),
  (2397, [e T 0 T 0 2, e F 1 T 1 4, e F 0 T 2 3, e T 0 T 3 2]),
  (2399, [e T 0 T 0 2, e F 1 T 1 4, e F 0 T 2 5]),
  (2401, [e T 0 T 0 2, e F 1 T 1 4, e T 0 T 2 5]),
  (2403, [e T 0 T 0 2, e F 1 T 1 4, e T 0 T 2 3, e F 0 T 3 2]),
  (2405, [e T 0 T 0 2, e F 1 T 1 4, e T 1 T 2 5]),
  (2407, [e T 0 T 0 2, e F 1 T 1 4, e T 0 T 2 2, e F 0 T 3 3]),
  (2409, [e T 0 T 0 5, e T 1 T 1 3, e T 1 T 2 3]),
  (2411, [e T 0 T 0 2, e F 0 T 1 2, e F 1 T 2 5, e F 0 T 3 2]),
  (2413, [e F 0 T 0 7, e T 1 T 1 2, e F 1 T 2 2]),
  (2415, [e T 0 T 0 4, e T 1 T 0 1, e F 1 T 2 7]),
  (2417, [e F 0 T 0 4, e T 1 T 0 2, e F 1 T 2 7]),
  (2419, [e T 0 T 0 1, e T 1 T 0 4, e F 1 T 2 5, e F 0 T 3 2]),
  (2421, [e T 0 T 0 1, e T 1 T 0 4, e F 1 T 2 5, e T 0 T 3 2]),
  (2423, [e T 0 T 0 3, e T 0 T 1 1, e F 1 T 2 7]),
  (2425, [e T 0 T 0 2, e F 0 T 1 2, e F 0 T 2 4, e T 0 T 3 3]),
  (2427, [e T 0 T 0 2, e F 0 T 1 2, e F 1 T 2 7]),
  (2429, [e T 0 T 0 1, e T 1 T 0 4, e F 1 T 2 7]),
  (2431, [e T 0 T 0 2, e F 0 T 1 2, e F 0 T 2 7])]

/-- `/repo/assets/asc-12.yaml`, entries 1216–1279 -/
def part19 : List (Nat × Asc) := [
  (2433, [e T 0 T 0 2, e F 0 T 1 2, e T 0 T 2 7]),
  (2435, [e T 0 T 0 1, e T 1 T 0 4, e T 1 T 2 7]),
  (2437, [e T 0 T 0 2, e F 0 T 1 2, e T 1 T 2 7]),
  (2439, [e T 0 T 0 3, e T 1 T 1 4, e F 1 T 2 4]),
  (2441, [e T 0 T 0 3, e T 0 T 1 1, e T 1 T 2 7]),
  (2443, [e T 0 T 0 3, e T 1 T 1 4, e F 0 T 2 2, e F 0 T 3 2]),
  (2445, [e T 0 T 0 3, e T 1 T 1 4, e F 0 T 2 2, e T 0 T 3 2]),
  (2447, [e T 0 T 0 3, e T 1 T 1 4, e F 0 T 2 4]),
  (2449, [e T 0 T 0 3, e T 1 T 1 4, e T 0 T 2 4]),
  (2451, [e T 0 T 0 7, e T 1 T 1 2, e F 1 T 2 2]),
  (2453, [e T 0 T 0 3, e T 1 T 1 4, e T 0 T 2 2, e T 0 T 3 2]),
  (2455, [e T 0 T 0 3, e T 1 T 1 4, e T 0 T 2 1, e F 0 T 3 3]),
  (2457, [e T 0 T 0 3, e T 1 T 1 4, e T 1 T 2 4]),
  (2459, [e T 0 T 0 2, e F 1 T 1 5, e F 1 T 2 2, e F 0 T 3 2]),
  (2461, [e T 0 T 0 2, e F 1 T 1 5, e F 1 T 2 2, e T 0 T 3 2]),
  (2463, [e T 0 T 0 2, e F 0 T 1 2, e T 0 T 2 2, e F 0 T 3 5]),
  (2465, [e T 0 T 0 4, e T 1 T 1 3, e T 1 T 2 4]),
  (2467, [e T 0 T 0 3, e T 0 T 1 1, e T 1 T 2 5, e F 0 T 3 2]),
  (2469, [e T 0 T 0 2, e F 1 T 1 5, e F 1 T 2 3, e F 0 T 3 1]),
  (2471, [e T 0 T 0 2, e F 1 T 1 5, e F 0 T 2 1, e F 0 T 3 3]),
  (2473, [e T 0 T 0 2, e F 1 T 1 5, e F 0 T 2 1, e T 0 T 3 3]),
  (2475, [e T 0 T 0 2, e F 1 T 1 5, e F 1 T 2 4]),
  (2477, [e T 0 T 0 2, e F 1 T 1 5, e F 0 T 2 2, e T 0 T 3 2]),
  (2479, [e T 0 T 0 2, e F 1 T 1 5, e F 0 T 2 4]),
  (2481, [e T 0 T 0 2, e F 1 T 1 5, e T 0 T 2 4]),
  (2483, [e T 0 T 0 2, e F 1 T 1 5, e T 0 T 2 2, e F 0 T 3 2]),
  (2485, [e T 0 T 0 2, e F 1 T 1 5, e T 1 T 2 4]),
  (2487, [e T 0 T 0 2, e F 0 T 1 3, e F 0 T 2 3, e F 0 T 3 3]),
  (2489, [e F 0 T 0 3, e T 1 T 0 5, e F 1 T 2 6]),
  (2491, [e T 0 T 0 2, e F 0 T 1 3, e F 1 T 2 6]),
  (2493, [e T 0 T 0 2, e F 0 T 1 3, e F 0 T 2 4, e T 0 T 3 2]),
  (2495, [e T 0 T 0 2, e F 0 T 1 3, e F 0 T 2 6]),
  (2497, [e T 0 T 0 2, e F 0 T 1 3, e T 0 T 2 6]),
  (2499, [e T 0 T 0 2, e F 0 T 1 3, e T 0 T 2 4, e F 0 T 3 2]),
  (2501, [e T 0 T 0 2, e F 0 T 1 3, e T 1 T 2 6]),
  (2503, [e F 0 T 0 3, e T 1 T 0 5, e T 1 T 2 6]),
  (2505, [e T 0 T 0 2, e F 0 T 1 3, e T 0 T 2 3, e T 0 T 3 3]),
  (2507, [e T 0 T 0 2, e F 0 T 1 3, e T 1 T 2 5, e T 0 T 3 1]),
  (2509, [e T 0 T 0 2, e F 0 T 1 4, e F 1 T 2 3, e T 0 T 3 2]),
  (2511, [e F 0 T 0 5, e T 1 T 1 2, e T 1 T 2 4]),
  (2513, [e F 0 T 0 4, e T 1 T 0 6, e F 1 T 2 5]),
  (2515, [e T 0 T 0 2, e F 1 T 1 6, e F 1 T 2 3]),
  (2517, [e T 0 T 0 2, e F 1 T 1 6, e F 0 T 2 1, e T 0 T 3 2]),
  (2519, [e T 0 T 0 2, e F 1 T 1 6, e F 0 T 2 3]),
  (2521, [e T 0 T 0 2, e F 1 T 1 6, e T 0 T 2 3]),
  (2523, [e T 0 T 0 2, e F 0 T 1 4, e F 1 T 2 5]),
  (2525, [e T 0 T 0 2, e F 1 T 1 6, e T 1 T 2 3]),
  (2527, [e T 0 T 0 2, e F 0 T 1 4, e F 0 T 2 5]),
  (2529, [e T 0 T 0 2, e F 0 T 1 4, e T 0 T 2 5]),
  (2531, [e T 0 T 0 2, e F 0 T 1 4, e T 0 T 2 3, e F 0 T 3 2]),
  (2533, [e T 0 T 0 2, e F 0 T 1 4, e T 1 T 2 5]),
  (2535, [e T 0 T 0 2, e F 1 T 1 7, e F 1 T 2 2]),
  (2537, [e T 0 T 0 2, e F 0 T 1 4, e T 0 T 2 2, e T 0 T 3 3]),
  (2539, [e T 0 T 0 2, e F 1 T 1 7, e F 0 T 2 2]),
  (2541, [e T 0 T 0 2, e F 1 T 1 7, e T 0 T 2 2]),
  (2543, [e T 0 T 0 2, e F 0 T 1 5, e F 0 T 2 4]),
  (2545, [e T 0 T 0 2, e F 0 T 1 5, e T 0 T 2 4]),
  (2547, [e T 0 T 0 2, e F 0 T 1 6, e F 1 T 2 3]),
  (2549, [e T 0 T 0 2, e F 1 T 1 8, e F 0 T 2 1]),
  (2551, [e T 0 T 0 2, e F 0 T 1 6, e F 0 T 2 3]),
  (2553, [e T 0 T 0 2, e F 0 T 1 6, e T 0 T 2 3]),
  (2555, [e T 0 T 0 2, e F 1 T 1 9]),
  (2557, [e T 0 T 0 2, e F 0 T 1 7, e T 0 T 2 2]),
  (2559, [e T 0 T 0 2, e F 0 T 1 9])]

/-- `/repo/assets/asc-12.yaml`, entries 1280–1343 -/
def part20 : List (Nat × Asc) := [
  (2561, [e T 0 T 0 2, e T 0 T 1 9]),
  (2563, [e T 0 T 0 2, e T 0 T 1 7, e F 0 T 2 2]),
  (2565, [e T 0 T 0 2, e T 1 T 1 9]),
  (2567, [e T 0 T 0 2, e T 0 T 1 6, e F 0 T 2 3]),
  (2569, [e T 0 T 0 2, e T 0 T 1 6, e T 0 T 2 3]),
  (2571, [e T 0 T 0 2, e T 1 T 1 8, e T 0 T 2 1]),
  (2573, [e T 0 T 0 2, e T 0 T 1 6, e T 1 T 2 3]),
  (2575, [e T 0 T 0 2, e T 0 T 1 5, e F 0 T 2 4]),
  (2577, [e T 0 T 0 2, e T 0 T 1 5, e T 0 T 2 4]),
  (2579, [e T 0 T 0 2, e T 1 T 1 7, e F 0 T 2 2]),
  (2581, [e T 0 T 0 2, e T 1 T 1 7, e T 0 T 2 2]),
  (2583, [e T 0 T 0 3, e T 1 T 1 3, e F 1 T 2 5]),
  (2585, [e T 0 T 0 2, e T 1 T 1 7, e T 1 T 2 2]),
  (2587, [e T 0 T 0 2, e T 0 T 1 4, e F 1 T 2 5]),
  (2589, [e T 0 T 0 2, e T 0 T 1 4, e F 0 T 2 3, e T 0 T 3 2]),
  (2591, [e T 0 T 0 2, e T 0 T 1 4, e F 0 T 2 5]),
  (2593, [e T 0 T 0 2, e T 0 T 1 4, e T 0 T 2 5]),
  (2595, [e T 0 T 0 2, e T 1 T 1 6, e F 1 T 2 3]),
  (2597, [e T 0 T 0 2, e T 0 T 1 4, e T 1 T 2 5]),
  (2599, [e T 0 T 0 2, e T 1 T 1 6, e F 0 T 2 3]),
  (2601, [e T 0 T 0 2, e T 1 T 1 6, e T 0 T 2 3]),
  (2603, [e T 0 T 0 2, e T 1 T 1 6, e T 0 T 2 1, e F 0 T 3 2]),
  (2605, [e T 0 T 0 2, e T 1 T 1 6, e T 1 T 2 3]),
  (2607, [e T 0 T 0 5, e T 1 T 1 2, e F 1 T 2 4]),
  (2609, [e T 0 T 0 4, e T 1 T 0 6, e T 1 T 2 5]),
  (2611, [e T 0 T 0 2, e T 0 T 1 4, e T 1 T 2 3, e F 0 T 3 2]),
  (2613, [e T 0 T 0 2, e T 0 T 1 3, e F 1 T 2 5, e F 0 T 3 1]),
  (2615, [e T 0 T 0 3, e T 1 T 0 5, e F 1 T 2 6]),
  (2617, [e T 0 T 0 2, e T 0 T 1 3, e F 0 T 2 3, e T 0 T 3 3]),
  (2619, [e T 0 T 0 2, e T 0 T 1 3, e F 1 T 2 6]),
  (2621, [e T 0 T 0 2, e T 0 T 1 3, e F 0 T 2 4, e T 0 T 3 2]),
  (2623, [e T 0 T 0 2, e T 0 T 1 3, e F 0 T 2 6]),
  (2625, [e T 0 T 0 2, e T 0 T 1 3, e T 0 T 2 6]),
  (2627, [e T 0 T 0 2, e T 0 T 1 3, e T 0 T 2 4, e F 0 T 3 2]),
  (2629, [e T 0 T 0 2, e T 0 T 1 3, e T 1 T 2 6]),
  (2631, [e T 0 T 0 2, e T 0 T 1 3, e T 0 T 2 3, e F 0 T 3 3]),
  (2633, [e T 0 T 0 3, e T 1 T 0 5, e T 1 T 2 6]),
  (2635, [e T 0 T 0 2, e T 1 T 1 5, e F 1 T 2 4]),
  (2637, [e T 0 T 0 2, e T 1 T 1 5, e F 0 T 2 2, e T 0 T 3 2]),
  (2639, [e T 0 T 0 2, e T 1 T 1 5, e F 0 T 2 4]),
  (2641, [e T 0 T 0 2, e T 1 T 1 5, e T 0 T 2 4]),
  (2643, [e T 0 T 0 2, e T 1 T 1 5, e T 0 T 2 2, e F 0 T 3 2]),
  (2645, [e T 0 T 0 2, e T 1 T 1 5, e T 1 T 2 4]),
  (2647, [e T 0 T 0 2, e T 1 T 1 5, e T 0 T 2 1, e F 0 T 3 3]),
  (2649, [e T 0 T 0 2, e T 1 T 1 5, e T 0 T 2 1, e T 0 T 3 3]),
  (2651, [e T 0 T 0 2, e T 1 T 1 5, e T 1 T 2 3, e T 0 T 3 1]),
  (2653, [e T 0 T 0 4, e T 1 T 0 2, e F 1 T 2 6, e F 0 T 3 1]),
  (2655, [e T 0 T 0 2, e T 0 T 1 2, e F 0 T 2 2, e F 0 T 3 5]),
  (2657, [e T 0 T 0 5, e T 1 T 0 3, e T 1 T 2 6]),
  (2659, [e T 0 T 0 2, e T 1 T 1 5, e T 1 T 2 2, e F 0 T 3 2]),
  (2661, [e T 0 T 0 2, e T 1 T 1 5, e T 1 T 2 2, e T 0 T 3 2]),
  (2663, [e T 0 T 0 1, e F 1 T 1 3, e F 1 T 2 4, e F 0 T 3 3]),
  (2665, [e T 0 T 0 6, e T 1 T 1 2, e T 1 T 2 3]),
  (2667, [e F 0 T 0 7, e T 1 T 1 2, e T 1 T 2 2]),
  (2669, [e T 0 T 0 2, e T 0 T 1 2, e F 1 T 2 5, e T 0 T 3 2]),
  (2671, [e T 0 T 0 4, e T 1 T 0 2, e F 1 T 2 7]),
  (2673, [e T 0 T 0 5, e T 1 T 1 2, e T 1 T 2 4]),
  (2675, [e T 0 T 0 1, e F 1 T 1 3, e F 1 T 2 5, e F 0 T 3 2]),
  (2677, [e T 0 T 0 1, e F 1 T 1 3, e F 1 T 2 5, e T 0 T 3 2]),
  (2679, [e T 0 T 0 2, e T 0 T 1 2, e F 0 T 2 4, e F 0 T 3 3]),
  (2681, [e F 0 T 0 3, e T 1 T 1 1, e F 1 T 2 7]),
  (2683, [e T 0 T 0 2, e T 0 T 1 2, e F 1 T 2 7]),
  (2685, [e T 0 T 0 1, e F 1 T 1 3, e F 1 T 2 7]),
  (2687, [e T 0 T 0 2, e T 0 T 1 2, e F 0 T 2 7])]

/-- `/repo/assets/asc-12.yaml`, entries 1344–1407 -/
def part21 : List (Nat × Asc) := [
  (2689, [e T 0 T 0 2, e T 0 T 1 2, e T 0 T 2 7]),
  (2691, [e T 0 T 0 1, e F 1 T 1 3, e T 1 T 2 7]),
  (2693, [e T 0 T 0 2, e T 0 T 1 2, e T 1 T 2 7]),
  (2695, [e F 0 T 0 3, e T 1 T 1 1, e T 1 T 2 7]),
  (2697, [e T 0 T 0 2, e T 0 T 1 2, e T 0 T 2 4, e T 0 T 3 3]),
  (2699, [e T 0 T 0 1, e F 1 T 1 3, e T 1 T 2 5, e F 0 T 3 2]),
  (2701, [e T 0 T 0 1, e F 1 T 1 3, e T 1 T 2 5, e T 0 T 3 2]),
  (2703, [e T 0 T 0 4, e T 1 T 1 2, e F 1 T 2 5]),
  (2705, [e T 0 T 0 4, e T 1 T 0 2, e T 1 T 2 7]),
  (2707, [e T 0 T 0 2, e T 0 T 1 2, e T 1 T 2 5, e F 0 T 3 2]),
  (2709, [e T 0 T 0 7, e T 1 T 1 2, e T 1 T 2 2]),
  (2711, [e T 0 T 0 2, e T 1 T 1 4, e F 0 T 2 2, e F 0 T 3 3]),
  (2713, [e T 0 T 0 2, e T 1 T 1 4, e F 0 T 2 2, e T 0 T 3 3]),
  (2715, [e T 0 T 0 2, e T 1 T 1 4, e F 1 T 2 5]),
  (2717, [e T 0 T 0 2, e T 1 T 1 4, e F 0 T 2 3, e T 0 T 3 2]),
  (2719, [e T 0 T 0 2, e T 1 T 1 4, e F 0 T 2 5]),
  (2721, [e T 0 T 0 2, e T 1 T 1 4, e T 0 T 2 5]),
  (2723, [e T 0 T 0 2, e T 1 T 1 4, e T 0 T 2 3, e F 0 T 3 2]),
  (2725, [e T 0 T 0 2, e T 1 T 1 4, e T 1 T 2 5]),
  (2727, [e T 0 T 0 2, e T 1 T 1 4, e T 0 T 2 2, e F 0 T 3 3]),
  (2729, [e T 0 T 0 2, e T 1 T 1 4, e T 0 T 2 2, e T 0 T 3 3]),
  (2731, [e T 0 T 0 2, e T 1 T 1 4, e T 1 T 2 4, e T 0 T 3 1]),
  (2733, [e T 0 T 0 1, e F 1 T 1 3, e T 1 T 2 3, e F 1 T 3 4]),
  (2735, [e T 0 T 0 2, e T 1 T 1 4, e T 0 T 2 1, e F 0 T 3 4]),
  (2737, [e T 0 T 0 4, e T 1 T 1 2, e T 1 T 2 5]),
  (2739, [e T 0 T 0 2, e T 1 T 1 4, e T 1 T 2 3, e F 0 T 3 2]),
  (2741, [e T 0 T 0 2, e T 1 T 1 4, e T 1 T 2 3, e T 0 T 3 2]),
  (2743, [e T 0 T 0 3, e T 1 T 0 1, e F 1 T 2 5, e F 0 T 3 3]),
  (2745, [e T 0 T 0 3, e T 1 T 0 1, e F 1 T 2 5, e T 0 T 3 3]),
  (2747, [e T 0 T 0 1, e T 0 T 1 4, e F 2 T 2 3, e T 1 T 3 3]),
  (2749, [e T 0 T 0 1, e F 0 T 1 2, e F 0 T 2 2, e F 1 T 3 6]),
  (2751, [e T 0 T 0 1, e F 0 T 1 2, e F 0 T 2 2, e F 0 T 3 6]),
  (2753, [e T 0 T 0 1, e F 0 T 1 2, e F 0 T 2 2, e T 0 T 3 6]),
  (2755, [e T 0 T 0 4, e T 1 T 0 2, e T 1 T 2 5, e F 0 T 3 2]),
  (2757, [e T 0 T 0 4, e T 1 T 0 2, e T 1 T 2 5, e T 0 T 3 2]),
  (2759, [e T 0 T 0 2, e T 1 T 1 4, e T 1 T 2 2, e F 0 T 3 3]),
  (2761, [e T 0 T 0 2, e T 1 T 1 4, e T 1 T 2 2, e T 0 T 3 3]),
  (2763, [e T 0 T 0 1, e F 0 T 1 3, e F 2 T 2 4, e T 1 T 3 3]),
  (2765, [e T 0 T 0 1, e F 0 T 1 2, e F 1 T 2 4, e F 1 T 3 4]),
  (2767, [e T 0 T 0 1, e F 0 T 1 2, e F 1 T 2 4, e F 0 T 3 4]),
  (2769, [e T 0 T 0 1, e F 0 T 1 2, e F 1 T 2 4, e T 0 T 3 4]),
  (2771, [e T 0 T 0 5, e T 1 T 1 2, e T 1 T 2 2, e F 0 T 3 2]),
  (2773, [e T 0 T 0 5, e T 1 T 1 2, e T 1 T 2 2, e T 0 T 3 2]),
  (2775, [e T 0 T 0 2, e T 0 T 1 1, e F 1 T 2 5, e F 0 T 3 3]),
  (2777, [e T 0 T 0 2, e T 0 T 1 1, e F 1 T 2 5, e T 0 T 3 3]),
  (2779, [e T 0 T 0 3, e T 1 T 0 1, e F 1 T 2 6, e F 0 T 3 2]),
  (2781, [e T 0 T 0 3, e T 1 T 0 1, e F 1 T 2 6, e T 0 T 3 2]),
  (2783, [e T 0 T 0 1, e F 0 T 1 2, e F 0 T 2 3, e F 0 T 3 5]),
  (2785, [e T 0 T 0 1, e F 0 T 1 2, e F 0 T 2 3, e T 0 T 3 5]),
  (2787, [e F 0 T 0 3, e T 1 T 0 2, e F 1 T 2 6, e F 0 T 3 2]),
  (2789, [e F 0 T 0 3, e T 1 T 0 2, e F 1 T 2 6, e T 0 T 3 2]),
  (2791, [e T 0 T 0 1, e F 0 T 1 2, e F 1 T 2 5, e F 0 T 3 3]),
  (2793, [e T 0 T 0 1, e F 0 T 1 2, e F 1 T 2 5, e T 0 T 3 3]),
  (2795, [e T 0 T 0 2, e T 0 T 1 1, e F 1 T 2 6, e F 0 T 3 2]),
  (2797, [e T 0 T 0 2, e T 0 T 1 1, e F 1 T 2 6, e T 0 T 3 2]),
  (2799, [e T 0 T 0 1, e F 0 T 1 2, e F 0 T 2 4, e F 0 T 3 4]),
  (2801, [e F 0 T 0 4, e T 1 F 0 2, e F 1 T 2 8]),
  (2803, [e T 0 T 0 1, e F 0 T 1 2, e F 1 T 2 6, e F 0 T 3 2]),
  (2805, [e F 0 T 0 8, e T 1 T 1 1, e F 1 T 2 2]),
  (2807, [e T 0 T 0 3, e T 1 T 0 1, e F 1 T 2 8]),
  (2809, [e F 0 T 0 3, e T 1 T 0 2, e F 1 T 2 8]),
  (2811, [e T 0 T 0 2, e T 0 T 1 1, e F 1 T 2 8]),
  (2813, [e T 0 T 0 1, e F 0 T 1 2, e F 1 T 2 8]),
  (2815, [e T 0 T 0 1, e F 0 T 1 2, e F 0 T 2 8])]

/-- `/repo/assets/asc-12.yaml`, entries 1408–1471 -/
def part22 : List (Nat × Asc) := [
  (2817, [e T 0 T 0 1, e F 0 T 1 2, e T 0 T 2 8]),
  (2819, [e T 0 T 0 1, e F 0 T 1 2, e T 1 T 2 8]),
  (2821, [e T 0 T 0 2, e T 0 T 1 1, e T 1 T 2 8]),
  (2823, [e F 0 T 0 3, e T 1 T 0 2, e T 1 T 2 8]),
  (2825, [e T 0 T 0 3, e T 1 T 0 1, e T 1 T 2 8]),
  (2827, [e T 0 T 0 8, e T 1 T 1 1, e F 1 T 2 2]),
  (2829, [e T 0 T 0 1, e F 0 T 1 2, e T 1 T 2 6, e T 0 T 3 2]),
  (2831, [e F 0 T 0 4, e T 1 F 0 2, e T 1 T 2 8]),
  (2833, [e T 0 T 0 1, e F 0 T 1 2, e T 0 T 2 4, e T 0 T 3 4]),
  (2835, [e T 0 T 0 1, e F 1 T 1 4, e F 2 T 2 6]),
  (2837, [e T 0 T 0 2, e T 0 T 1 1, e T 1 T 2 6, e T 0 T 3 2]),
  (2839, [e T 0 T 0 1, e F 0 T 1 2, e T 1 T 2 5, e F 0 T 3 3]),
  (2841, [e T 0 T 0 1, e F 0 T 1 2, e T 1 T 2 5, e T 0 T 3 3]),
  (2843, [e T 0 T 0 3, e T 1 T 1 2, e F 1 T 2 4, e F 0 T 3 2]),
  (2845, [e T 0 T 0 3, e T 1 T 1 2, e F 1 T 2 4, e T 0 T 3 2]),
  (2847, [e T 0 T 0 1, e F 0 T 1 2, e T 0 T 2 3, e F 0 T 3 5]),
  (2849, [e T 0 T 0 1, e F 0 T 1 2, e T 0 T 2 3, e T 0 T 3 5]),
  (2851, [e T 0 T 0 3, e T 1 T 0 1, e T 1 T 2 6, e F 0 T 3 2]),
  (2853, [e T 0 T 0 3, e T 1 T 0 1, e T 1 T 2 6, e T 0 T 3 2]),
  (2855, [e T 0 T 0 1, e F 1 T 1 4, e F 1 T 2 3, e F 0 T 3 3]),
  (2857, [e T 0 T 0 1, e F 1 T 1 4, e F 1 T 2 3, e T 0 T 3 3]),
  (2859, [e T 0 T 0 2, e T 1 T 1 3, e F 1 T 2 4, e F 0 T 3 2]),
  (2861, [e T 0 T 0 2, e T 1 T 1 3, e F 1 T 2 4, e T 0 T 3 2]),
  (2863, [e T 0 T 0 1, e F 1 T 1 4, e F 0 T 2 2, e F 0 T 3 4]),
  (2865, [e F 0 T 0 4, e T 1 T 1 1, e F 1 T 2 6]),
  (2867, [e T 0 T 0 1, e F 1 T 1 4, e F 1 T 2 4, e F 0 T 3 2]),
  (2869, [e T 0 T 0 1, e F 1 T 1 4, e F 1 T 2 4, e T 0 T 3 2]),
  (2871, [e T 0 T 0 3, e T 1 T 1 2, e F 1 T 2 6]),
  (2873, [e T 0 T 0 1, e F 1 T 1 4, e F 0 T 2 3, e T 0 T 3 3]),
  (2875, [e T 0 T 0 2, e T 1 T 1 3, e F 1 T 2 6]),
  (2877, [e T 0 T 0 1, e F 1 T 1 4, e F 1 T 2 6]),
  (2879, [e T 0 T 0 1, e F 1 T 1 4, e F 0 T 2 6]),
  (2881, [e T 0 T 0 1, e F 1 T 1 4, e T 0 T 2 6]),
  (2883, [e T 0 T 0 1, e F 1 T 1 4, e T 1 T 2 6]),
  (2885, [e T 0 T 0 2, e T 1 T 1 3, e T 1 T 2 6]),
  (2887, [e T 0 T 0 1, e F 1 T 1 4, e T 0 T 2 3, e F 0 T 3 3]),
  (2889, [e T 0 T 0 3, e T 1 T 1 2, e T 1 T 2 6]),
  (2891, [e T 0 T 0 1, e F 1 T 1 4, e T 1 T 2 4, e F 0 T 3 2]),
  (2893, [e T 0 T 0 1, e F 1 T 1 4, e T 1 T 2 4, e T 0 T 3 2]),
  (2895, [e F 0 T 0 4, e T 1 T 1 1, e T 1 T 2 6]),
  (2897, [e T 0 T 0 1, e F 1 T 1 4, e T 0 T 2 2, e T 0 T 3 4]),
  (2899, [e T 0 T 0 2, e T 1 T 1 3, e T 1 T 2 4, e F 0 T 3 2]),
  (2901, [e T 0 T 0 2, e T 1 T 1 3, e T 1 T 2 4, e T 0 T 3 2]),
  (2903, [e T 0 T 0 1, e F 1 T 1 4, e T 1 T 2 3, e F 0 T 3 3]),
  (2905, [e T 0 T 0 1, e F 1 T 1 4, e T 1 T 2 3, e T 0 T 3 3]),
  (2907, [e T 0 T 0 3, e F 1 T 0 5, e F 1 T 2 5, e F 0 T 3 2]),
  (2909, [e T 0 T 0 3, e F 1 T 0 5, e F 1 T 2 5, e T 0 T 3 2]),
  (2911, [e T 0 T 0 1, e F 0 T 1 3, e F 0 T 2 2, e F 0 T 3 5]),
  (2913, [e F 0 T 0 5, e T 1 F 0 3, e F 1 T 2 7]),
  (2915, [e T 0 T 0 3, e T 1 T 1 2, e T 1 T 2 4, e F 0 T 3 2]),
  (2917, [e T 0 T 0 3, e T 1 T 1 2, e T 1 T 2 4, e T 0 T 3 2]),
  (2919, [e T 0 T 0 1, e F 0 T 1 3, e F 1 T 2 4, e F 0 T 3 3]),
  (2921, [e F 0 T 0 7, e T 1 T 1 1, e F 1 T 2 3]),
  (2923, [e T 0 T 0 1, e F 0 T 1 3, e F 1 T 2 4, e T 1 T 3 3]),
  (2925, [e T 0 T 0 1, e F 1 T 1 4, e T 2 T 2 6]),
  (2927, [e T 0 T 0 1, e F 0 T 1 3, e F 0 T 2 3, e F 0 T 3 4]),
  (2929, [e F 0 T 0 4, e T 1 T 0 3, e F 1 T 2 7]),
  (2931, [e T 0 T 0 1, e F 0 T 1 3, e F 1 T 2 5, e F 0 T 3 2]),
  (2933, [e T 0 T 0 1, e F 0 T 1 3, e F 1 T 2 5, e T 0 T 3 2]),
  (2935, [e T 0 T 0 3, e F 1 T 0 5, e F 1 T 2 7]),
  (2937, [e F 0 T 0 3, e T 1 T 0 4, e F 1 T 2 7]),
  (2939, [e T 0 T 0 1, e F 0 T 1 3, e F 0 T 2 5, e F 0 T 3 2]),
  (2941, [e T 0 T 0 1, e F 0 T 1 3, e F 1 T 2 7]),
  (2943, [e T 0 T 0 1, e F 0 T 1 3, e F 0 T 2 7])]

/-- `/repo/assets/asc-12.yaml`, entries 1472–1535 -/
def part23 : List (Nat × Asc) := [
  (2945, [e T 0 T 0 1, e F 0 T 1 3, e T 0 T 2 7]),
  (2947, [e T 0 T 0 1, e F 0 T 1 3, e T 1 T 2 7]),
  (2949, [e T 0 T 0 1, e F 0 T 1 3, e T 0 T 2 5, e T 0 T 3 2]),
  (2951, [e F 0 T 0 3, e T 1 T 0 4, e T 1 T 2 7]),
  (2953, [e T 0 T 0 3, e F 1 T 0 5, e T 1 T 2 7]),
  (2955, [e T 0 T 0 1, e F 0 T 1 3, e T 1 T 2 5, e F 0 T 3 2]),
  (2957, [e T 0 T 0 1, e F 0 T 1 3, e T 1 T 2 5, e T 0 T 3 2]),
  (2959, [e F 0 T 0 4, e T 1 T 0 3, e T 1 T 2 7]),
  (2961, [e F 0 T 0 6, e T 1 T 1 1, e F 1 T 2 4]),
  (2963, [e T 0 T 0 1, e F 1 T 1 5, e F 1 T 2 3, e F 0 T 3 2]),
  (2965, [e T 0 T 0 1, e F 1 T 1 5, e F 1 T 2 3, e T 0 T 3 2]),
  (2967, [e T 0 T 0 7, e T 1 T 1 1, e F 1 T 2 3]),
  (2969, [e T 0 T 0 1, e F 1 T 1 5, e F 0 T 2 2, e T 0 T 3 3]),
  (2971, [e T 0 T 0 1, e F 1 T 1 5, e F 0 T 2 3, e F 0 T 3 2]),
  (2973, [e T 0 T 0 1, e F 1 T 1 5, e F 1 T 2 5]),
  (2975, [e T 0 T 0 1, e F 1 T 1 5, e F 0 T 2 5]),
  (2977, [e T 0 T 0 1, e F 1 T 1 5, e T 0 T 2 5]),
  (2979, [e T 0 T 0 1, e F 1 T 1 5, e T 1 T 2 5]),
  (2981, [e T 0 T 0 1, e F 1 T 1 5, e T 0 T 2 3, e T 0 T 3 2]),
  (2983, [e T 0 T 0 1, e F 1 T 1 5, e T 0 T 2 2, e F 0 T 3 3]),
  (2985, [e T 0 T 0 1, e F 1 T 1 5, e T 0 T 2 2, e T 0 T 3 3]),
  (2987, [e T 0 T 0 1, e F 1 T 1 5, e T 1 T 2 3, e F 0 T 3 2]),
  (2989, [e T 0 T 0 1, e F 1 T 1 5, e T 1 T 2 3, e T 0 T 3 2]),
  (2991, [e T 0 T 0 4, e F 1 T 0 6, e F 1 T 2 6]),
  (2993, [e F 0 T 0 4, e T 1 T 0 5, e F 1 T 2 6]),
  (2995, [e T 0 T 0 1, e F 0 T 1 4, e F 1 T 2 4, e F 0 T 3 2]),
  (2997, [e T 0 T 0 1, e F 0 T 1 4, e F 1 T 2 4, e T 0 T 3 2]),
  (2999, [e T 0 T 0 1, e F 0 T 1 4, e F 0 T 2 3, e F 0 T 3 3]),
  (3001, [e T 0 T 0 1, e F 0 T 1 4, e F 0 T 2 3, e T 0 T 3 3]),
  (3003, [e T 0 T 0 1, e F 0 T 1 4, e F 0 T 2 4, e F 0 T 3 2]),
  (3005, [e T 0 T 0 1, e F 0 T 1 4, e F 1 T 2 6]),
  (3007, [e T 0 T 0 1, e F 0 T 1 4, e F 0 T 2 6]),
  (3009, [e T 0 T 0 1, e F 0 T 1 4, e T 0 T 2 6]),
  (3011, [e T 0 T 0 1, e F 0 T 1 4, e T 1 T 2 6]),
  (3013, [e T 0 T 0 1, e F 0 T 1 4, e T 0 T 2 4, e T 0 T 3 2]),
  (3015, [e T 0 T 0 1, e F 0 T 1 4, e T 0 T 2 3, e F 0 T 3 3]),
  (3017, [e T 0 T 0 1, e F 0 T 1 4, e T 0 T 2 3, e T 0 T 3 3]),
  (3019, [e T 0 T 0 1, e F 1 T 1 6, e F 0 T 2 2, e F 0 T 3 2]),
  (3021, [e T 0 T 0 1, e F 1 T 1 6, e F 1 T 2 4]),
  (3023, [e T 0 T 0 1, e F 1 T 1 6, e F 0 T 2 4]),
  (3025, [e T 0 T 0 1, e F 1 T 1 6, e T 0 T 2 4]),
  (3027, [e T 0 T 0 1, e F 1 T 1 6, e T 1 T 2 4]),
  (3029, [e T 0 T 0 1, e F 1 T 1 6, e T 0 T 2 2, e T 0 T 3 2]),
  (3031, [e T 0 T 0 1, e F 0 T 1 5, e F 0 T 2 2, e F 0 T 3 3]),
  (3033, [e T 0 T 0 1, e F 0 T 1 5, e F 0 T 2 2, e T 0 T 3 3]),
  (3035, [e T 0 T 0 1, e F 0 T 1 5, e F 0 T 2 3, e F 0 T 3 2]),
  (3037, [e T 0 T 0 1, e F 0 T 1 5, e F 1 T 2 5]),
  (3039, [e T 0 T 0 1, e F 0 T 1 5, e F 0 T 2 5]),
  (3041, [e T 0 T 0 1, e F 0 T 1 5, e T 0 T 2 5]),
  (3043, [e T 0 T 0 1, e F 0 T 1 5, e T 1 T 2 5]),
  (3045, [e T 0 T 0 1, e F 1 T 1 7, e F 1 T 2 3]),
  (3047, [e T 0 T 0 1, e F 1 T 1 7, e F 0 T 2 3]),
  (3049, [e T 0 T 0 1, e F 1 T 1 7, e T 0 T 2 3]),
  (3051, [e T 0 T 0 1, e F 1 T 1 7, e T 1 T 2 3]),
  (3053, [e T 0 T 0 1, e F 0 T 1 6, e F 1 T 2 4]),
  (3055, [e T 0 T 0 1, e F 0 T 1 6, e F 0 T 2 4]),
  (3057, [e T 0 T 0 1, e F 0 T 1 6, e T 0 T 2 4]),
  (3059, [e T 0 T 0 1, e F 1 T 1 8, e F 0 T 2 2]),
  (3061, [e T 0 T 0 1, e F 1 T 1 8, e T 0 T 2 2]),
  (3063, [e T 0 T 0 1, e F 0 T 1 7, e F 0 T 2 3]),
  (3065, [e T 0 T 0 1, e F 0 T 1 7, e T 0 T 2 3]),
  (3067, [e T 0 T 0 1, e F 0 T 1 8, e F 0 T 2 2]),
  (3069, [e T 0 T 0 1, e F 1 T 1 10]),
  (3071, [e T 0 T 0 1, e F 0 T 1 10])]

/-- `/repo/assets/asc-12.yaml`, entries 1536–1599 -/
def part24 : List (Nat × Asc) := [
  (3073, [e T 0 T 0 1, e T 0 T 1 10]),
  (3075, [e T 0 T 0 1, e T 1 T 1 10]),
  (3077, [e T 0 T 0 1, e T 0 T 1 8, e T 0 T 2 2]),
  (3079, [e T 0 T 0 1, e T 0 T 1 7, e F 0 T 2 3]),
  (3081, [e T 0 T 0 1, e T 0 T 1 7, e T 0 T 2 3]),
  (3083, [e T 0 T 0 1, e T 1 T 1 8, e F 0 T 2 2]),
  (3085, [e T 0 T 0 1, e T 1 T 1 8, e T 0 T 2 2]),
  (3087, [e T 0 T 0 1, e T 0 T 1 6, e F 0 T 2 4]),
  (3089, [e T 0 T 0 1, e T 0 T 1 6, e T 0 T 2 4]),
  (3091, [e T 0 T 0 1, e T 0 T 1 6, e T 1 T 2 4]),
  (3093, [e T 0 T 0 1, e T 1 T 1 7, e F 1 T 2 3]),
  (3095, [e T 0 T 0 1, e T 1 T 1 7, e F 0 T 2 3]),
  (3097, [e T 0 T 0 1, e T 1 T 1 7, e T 0 T 2 3]),
  (3099, [e T 0 T 0 1, e T 1 T 1 7, e T 1 T 2 3]),
  (3101, [e T 0 T 0 1, e T 0 T 1 5, e F 1 T 2 5]),
  (3103, [e T 0 T 0 1, e T 0 T 1 5, e F 0 T 2 5]),
  (3105, [e T 0 T 0 1, e T 0 T 1 5, e T 0 T 2 5]),
  (3107, [e T 0 T 0 1, e T 0 T 1 5, e T 1 T 2 5]),
  (3109, [e T 0 T 0 1, e T 0 T 1 5, e T 0 T 2 3, e T 0 T 3 2]),
  (3111, [e T 0 T 0 1, e T 0 T 1 5, e T 0 T 2 2, e F 0 T 3 3]),
  (3113, [e T 0 T 0 1, e T 0 T 1 5, e T 0 T 2 2, e T 0 T 3 3]),
  (3115, [e T 0 T 0 1, e T 1 T 1 6, e F 0 T 2 2, e F 0 T 3 2]),
  (3117, [e T 0 T 0 1, e T 1 T 1 6, e F 1 T 2 4]),
  (3119, [e T 0 T 0 1, e T 1 T 1 6, e F 0 T 2 4]),
  (3121, [e T 0 T 0 1, e T 1 T 1 6, e T 0 T 2 4]),
  (3123, [e T 0 T 0 1, e T 1 T 1 6, e T 1 T 2 4]),
  (3125, [e T 0 T 0 1, e T 1 T 1 6, e T 0 T 2 2, e T 0 T 3 2]),
  (3127, [e T 0 T 0 1, e T 0 T 1 4, e F 0 T 2 3, e F 0 T 3 3]),
  (3129, [e F 0 T 0 3, e F 1 T 1 3, e F 1 T 2 6]),
  (3131, [e T 0 T 0 1, e T 0 T 1 4, e F 0 T 2 4, e F 0 T 3 2]),
  (3133, [e T 0 T 0 1, e T 0 T 1 4, e F 1 T 2 6]),
  (3135, [e T 0 T 0 1, e T 0 T 1 4, e F 0 T 2 6]),
  (3137, [e T 0 T 0 1, e T 0 T 1 4, e T 0 T 2 6]),
  (3139, [e T 0 T 0 1, e T 0 T 1 4, e T 1 T 2 6]),
  (3141, [e T 0 T 0 1, e T 0 T 1 4, e T 0 T 2 4, e T 0 T 3 2]),
  (3143, [e F 0 T 0 3, e F 1 T 1 3, e T 1 T 2 6]),
  (3145, [e T 0 T 0 1, e T 0 T 1 4, e T 0 T 2 3, e T 0 T 3 3]),
  (3147, [e T 0 T 0 1, e T 0 T 1 4, e T 1 T 2 4, e F 0 T 3 2]),
  (3149, [e T 0 T 0 1, e T 0 T 1 4, e T 1 T 2 4, e T 0 T 3 2]),
  (3151, [e F 0 T 0 4, e F 1 T 0 6, e T 1 T 2 6]),
  (3153, [e T 0 T 0 4, e T 1 T 0 5, e T 1 T 2 6]),
  (3155, [e T 0 T 0 1, e T 1 T 1 5, e F 1 T 2 3, e F 0 T 3 2]),
  (3157, [e T 0 T 0 1, e T 1 T 1 5, e F 1 T 2 3, e T 0 T 3 2]),
  (3159, [e T 0 T 0 1, e T 1 T 1 5, e F 0 T 2 2, e F 0 T 3 3]),
  (3161, [e T 0 T 0 1, e T 1 T 1 5, e F 0 T 2 2, e T 0 T 3 3]),
  (3163, [e T 0 T 0 1, e T 1 T 1 5, e F 0 T 2 3, e F 0 T 3 2]),
  (3165, [e T 0 T 0 1, e T 1 T 1 5, e F 1 T 2 5]),
  (3167, [e T 0 T 0 1, e T 1 T 1 5, e F 0 T 2 5]),
  (3169, [e T 0 T 0 1, e T 1 T 1 5, e T 0 T 2 5]),
  (3171, [e T 0 T 0 1, e T 1 T 1 5, e T 1 T 2 5]),
  (3173, [e T 0 T 0 1, e T 1 T 1 5, e T 0 T 2 3, e T 0 T 3 2]),
  (3175, [e F 0 T 0 7, e T 1 T 1 1, e T 1 T 2 3]),
  (3177, [e T 0 T 0 1, e T 1 T 1 5, e T 0 T 2 2, e T 0 T 3 3]),
  (3179, [e T 0 T 0 1, e T 1 T 1 5, e T 1 T 2 3, e F 0 T 3 2]),
  (3181, [e T 0 T 0 1, e T 1 T 1 5, e T 1 T 2 3, e T 0 T 3 2]),
  (3183, [e T 0 T 0 4, e T 1 T 0 3, e F 1 T 2 7]),
  (3185, [e T 0 T 0 6, e T 1 T 1 1, e T 1 T 2 4]),
  (3187, [e T 0 T 0 1, e T 0 T 1 3, e F 1 T 2 5, e F 0 T 3 2]),
  (3189, [e T 0 T 0 1, e T 0 T 1 3, e F 1 T 2 5, e T 0 T 3 2]),
  (3191, [e T 0 T 0 3, e T 1 T 0 4, e F 1 T 2 7]),
  (3193, [e F 0 T 0 3, e F 1 T 0 5, e F 1 T 2 7]),
  (3195, [e T 0 T 0 2, e T 1 T 1 2, e F 1 T 2 7]),
  (3197, [e T 0 T 0 1, e T 0 T 1 3, e F 1 T 2 7]),
  (3199, [e T 0 T 0 1, e T 0 T 1 3, e F 0 T 2 7])]

/-- `/repo/assets/asc-12.yaml`, entries 1600–1663 -/
def part25 : List (Nat × Asc) := [
  (3201, [e T 0 T 0 1, e T 0 T 1 3, e T 0 T 2 7]),
  (3203, [e T 0 T 0 1, e T 0 T 1 3, e T 1 T 2 7]),
  (3205, [e T 0 T 0 2, e T 1 T 1 2, e T 1 T 2 7]),
  (3207, [e F 0 T 0 3, e F 1 T 0 5, e T 1 T 2 7]),
  (3209, [e T 0 T 0 3, e T 1 T 0 4, e T 1 T 2 7]),
  (3211, [e T 0 T 0 1, e T 0 T 1 3, e T 1 T 2 5, e F 0 T 3 2]),
  (3213, [e T 0 T 0 1, e T 1 T 1 4, e F 2 T 2 6]),
  (3215, [e T 0 T 0 1, e T 0 T 1 3, e T 0 T 2 3, e F 0 T 3 4]),
  (3217, [e T 0 T 0 4, e T 1 T 0 3, e T 1 T 2 7]),
  (3219, [e T 0 T 0 2, e T 1 T 1 2, e T 1 T 2 5, e F 0 T 3 2]),
  (3221, [e T 0 T 0 2, e T 1 T 1 2, e T 1 T 2 5, e T 0 T 3 2]),
  (3223, [e T 0 T 0 1, e T 0 T 1 3, e T 1 T 2 4, e F 0 T 3 3]),
  (3225, [e T 0 T 0 7, e T 1 T 1 1, e T 1 T 2 3]),
  (3227, [e F 0 T 0 3, e F 1 T 0 5, e T 1 T 2 5, e F 0 T 3 2]),
  (3229, [e F 0 T 0 3, e F 1 T 0 5, e T 1 T 2 5, e T 0 T 3 2]),
  (3231, [e T 0 T 0 1, e T 0 T 1 3, e T 0 T 2 2, e F 0 T 3 5]),
  (3233, [e T 0 T 0 5, e T 1 F 0 3, e T 1 T 2 7]),
  (3235, [e T 0 T 0 3, e T 1 T 0 4, e T 1 T 2 5, e F 0 T 3 2]),
  (3237, [e T 0 T 0 3, e T 1 T 0 4, e T 1 T 2 5, e T 0 T 3 2]),
  (3239, [e T 0 T 0 1, e T 1 T 1 4, e F 1 T 2 3, e F 0 T 3 3]),
  (3241, [e T 0 T 0 1, e T 1 T 1 4, e F 1 T 2 3, e T 0 T 3 3]),
  (3243, [e T 0 T 0 1, e T 1 T 1 4, e F 1 T 2 3, e T 1 T 3 3]),
  (3245, [e T 0 T 0 1, e T 1 T 1 4, e F 0 T 2 2, e F 1 T 3 4]),
  (3247, [e T 0 T 0 4, e T 1 T 1 1, e F 1 T 2 6]),
  (3249, [e T 0 T 0 1, e T 1 T 1 4, e F 0 T 2 2, e T 0 T 3 4]),
  (3251, [e T 0 T 0 1, e T 1 T 1 4, e F 1 T 2 4, e F 0 T 3 2]),
  (3253, [e T 0 T 0 1, e T 1 T 1 4, e F 1 T 2 4, e T 0 T 3 2]),
  (3255, [e F 0 T 0 3, e F 1 T 1 4, e F 2 T 2 5]),
  (3257, [e T 0 T 0 1, e T 1 T 1 4, e F 0 T 2 3, e T 0 T 3 3]),
  (3259, [e T 0 T 0 1, e T 1 T 1 4, e F 0 T 2 4, e F 0 T 3 2]),
  (3261, [e T 0 T 0 1, e T 1 T 1 4, e F 1 T 2 6]),
  (3263, [e T 0 T 0 1, e T 1 T 1 4, e F 0 T 2 6]),
  (3265, [e T 0 T 0 1, e T 1 T 1 4, e T 0 T 2 6]),
  (3267, [e T 0 T 0 1, e T 1 T 1 4, e T 1 T 2 6]),
  (3269, [e T 0 T 0 1, e T 1 T 1 4, e T 0 T 2 4, e T 0 T 3 2]),
  (3271, [e T 0 T 0 1, e T 1 T 1 4, e T 0 T 2 3, e F 0 T 3 3]),
  (3273, [e T 0 T 0 1, e T 1 T 1 4, e T 0 T 2 3, e T 0 T 3 3]),
  (3275, [e T 0 T 0 1, e T 1 T 1 4, e T 1 T 2 4, e F 0 T 3 2]),
  (3277, [e T 0 T 0 1, e T 1 T 1 4, e T 1 T 2 4, e T 0 T 3 2]),
  (3279, [e T 0 T 0 1, e T 1 T 1 4, e T 0 T 2 2, e F 0 T 3 4]),
  (3281, [e T 0 T 0 4, e T 1 T 1 1, e T 1 T 2 6]),
  (3283, [e T 0 T 0 1, e T 1 T 1 4, e T 0 T 2 2, e T 1 T 3 4]),
  (3285, [e T 0 T 0 1, e T 1 T 1 4, e T 1 T 2 3, e F 1 T 3 3]),
  (3287, [e T 0 T 0 1, e T 1 T 1 4, e T 1 T 2 3, e F 0 T 3 3]),
  (3289, [e T 0 T 0 1, e T 1 T 1 4, e T 1 T 2 3, e T 0 T 3 3]),
  (3291, [e T 0 T 0 3, e T 1 T 0 2, e F 1 T 2 6, e F 0 T 3 2]),
  (3293, [e T 0 T 0 3, e T 1 T 0 2, e F 1 T 2 6, e T 0 T 3 2]),
  (3295, [e T 0 T 0 1, e T 0 T 1 2, e F 0 T 2 3, e F 0 T 3 5]),
  (3297, [e T 0 T 0 1, e T 0 T 1 2, e F 0 T 2 3, e T 0 T 3 5]),
  (3299, [e F 0 T 0 3, e F 0 T 1 1, e F 1 T 2 6, e F 0 T 3 2]),
  (3301, [e F 0 T 0 3, e F 0 T 1 1, e F 1 T 2 6, e T 0 T 3 2]),
  (3303, [e T 0 T 0 1, e T 0 T 1 2, e F 1 T 2 5, e F 0 T 3 3]),
  (3305, [e T 0 T 0 1, e T 0 T 1 2, e F 1 T 2 5, e T 0 T 3 3]),
  (3307, [e T 0 T 0 2, e T 1 T 0 3, e F 1 T 2 6, e F 0 T 3 2]),
  (3309, [e T 0 T 0 2, e T 1 T 0 3, e F 1 T 2 6, e T 0 T 3 2]),
  (3311, [e T 0 T 0 4, e T 1 F 0 2, e F 1 T 2 8]),
  (3313, [e F 0 T 0 4, e T 1 F 0 1, e F 1 T 2 8]),
  (3315, [e F 0 T 0 8, e T 1 T 1 1, e T 1 T 2 2]),
  (3317, [e T 0 T 0 1, e T 0 T 1 2, e F 1 T 2 6, e T 0 T 3 2]),
  (3319, [e T 0 T 0 3, e T 1 T 0 2, e F 1 T 2 8]),
  (3321, [e F 0 T 0 3, e F 0 T 1 1, e F 1 T 2 8]),
  (3323, [e T 0 T 0 2, e T 1 T 0 3, e F 1 T 2 8]),
  (3325, [e T 0 T 0 1, e T 0 T 1 2, e F 1 T 2 8]),
  (3327, [e T 0 T 0 1, e T 0 T 1 2, e F 0 T 2 8])]

/-- `/repo/assets/asc-12.yaml`, entries 1664–1727 -/
def part26 : List (Nat × Asc) := [
  (3329, [e T 0 T 0 1, e T 0 T 1 2, e T 0 T 2 8]),
  (3331, [e T 0 T 0 1, e T 0 T 1 2, e T 1 T 2 8]),
  (3333, [e T 0 T 0 2, e T 1 T 0 3, e T 1 T 2 8]),
  (3335, [e F 0 T 0 3, e F 0 T 1 1, e T 1 T 2 8]),
  (3337, [e T 0 T 0 3, e T 1 T 0 2, e T 1 T 2 8]),
  (3339, [e T 0 T 0 1, e T 0 T 1 2, e T 1 T 2 6, e F 0 T 3 2]),
  (3341, [e T 0 T 0 8, e T 1 T 1 1, e T 1 T 2 2]),
  (3343, [e F 0 T 0 4, e T 1 F 0 1, e T 1 T 2 8]),
  (3345, [e T 0 T 0 4, e T 1 F 0 2, e T 1 T 2 8]),
  (3347, [e T 0 T 0 2, e T 1 T 0 3, e T 1 T 2 6, e F 0 T 3 2]),
  (3349, [e T 0 T 0 2, e T 1 T 0 3, e T 1 T 2 6, e T 0 T 3 2]),
  (3351, [e F 0 T 0 3, e F 1 T 1 4, e F 0 T 2 2, e F 0 T 3 3]),
  (3353, [e F 0 T 0 3, e F 1 T 1 4, e F 1 T 2 5]),
  (3355, [e F 0 T 0 3, e F 1 T 1 4, e F 0 T 2 3, e F 0 T 3 2]),
  (3357, [e F 0 T 0 3, e F 1 T 1 4, e F 0 T 2 3, e T 0 T 3 2]),
  (3359, [e F 0 T 0 3, e F 1 T 1 4, e F 0 T 2 5]),
  (3361, [e F 0 T 0 3, e F 1 T 1 4, e T 0 T 2 5]),
  (3363, [e F 0 T 0 3, e F 1 T 1 4, e T 0 T 2 3, e F 0 T 3 2]),
  (3365, [e F 0 T 0 3, e F 1 T 1 4, e T 0 T 2 3, e T 0 T 3 2]),
  (3367, [e F 0 T 0 3, e F 1 T 1 4, e T 1 T 2 5]),
  (3369, [e F 0 T 0 3, e F 1 T 1 4, e T 0 T 2 2, e T 0 T 3 3]),
  (3371, [e T 0 T 0 2, e F 1 T 0 5, e F 1 T 2 3, e F 1 T 3 4]),
  (3373, [e F 0 T 0 3, e F 1 T 1 4, e T 1 T 2 4, e F 0 T 3 1]),
  (3375, [e F 0 T 0 4, e F 1 T 1 3, e T 1 T 2 5]),
  (3377, [e F 0 T 0 3, e F 1 T 1 4, e T 0 T 2 1, e T 0 T 3 4]),
  (3379, [e T 0 T 0 6, e T 1 T 1 1, e T 1 T 2 2, e F 0 T 3 2]),
  (3381, [e T 0 T 0 6, e T 1 T 1 1, e T 1 T 2 2, e T 0 T 3 2]),
  (3383, [e T 0 T 0 3, e T 1 T 1 1, e F 1 T 2 4, e F 0 T 3 3]),
  (3385, [e T 0 T 0 3, e T 1 T 1 1, e F 1 T 2 4, e T 0 T 3 3]),
  (3387, [e F 0 T 0 3, e F 1 T 1 4, e T 1 T 2 3, e F 0 T 3 2]),
  (3389, [e F 0 T 0 3, e F 1 T 1 4, e T 1 T 2 3, e T 0 T 3 2]),
  (3391, [e T 0 T 0 1, e T 0 T 1 2, e T 0 T 2 2, e F 0 T 3 6]),
  (3393, [e T 0 T 0 1, e T 0 T 1 2, e T 0 T 2 2, e T 0 T 3 6]),
  (3395, [e T 0 T 0 4, e T 1 F 0 2, e T 1 T 2 6, e F 0 T 3 2]),
  (3397, [e T 0 T 0 4, e T 1 F 0 2, e T 1 T 2 6, e T 0 T 3 2]),
  (3399, [e T 0 T 0 3, e T 1 T 0 2, e T 1 T 2 5, e F 0 T 3 3]),
  (3401, [e T 0 T 0 3, e T 1 T 0 2, e T 1 T 2 5, e T 0 T 3 3]),
  (3403, [e F 0 T 0 6, e F 1 T 1 3, e F 1 T 2 2, e T 0 T 3 1]),
  (3405, [e T 0 T 0 1, e T 1 T 1 3, e F 1 T 2 3, e F 1 T 3 4]),
  (3407, [e T 0 T 0 1, e T 1 T 1 3, e F 1 T 2 3, e F 0 T 3 4]),
  (3409, [e T 0 T 0 1, e T 1 T 1 3, e F 1 T 2 3, e T 0 T 3 4]),
  (3411, [e F 0 T 0 5, e F 1 T 1 3, e F 1 T 2 3, e T 0 T 3 1]),
  (3413, [e T 0 T 0 1, e F 1 T 0 6, e F 2 T 2 3, e F 1 T 3 3]),
  (3415, [e T 0 T 0 2, e F 1 T 0 5, e F 1 T 2 4, e F 0 T 3 3]),
  (3417, [e T 0 T 0 2, e F 1 T 0 5, e F 1 T 2 4, e T 0 T 3 3]),
  (3419, [e T 0 T 0 3, e T 1 T 1 1, e F 1 T 2 5, e F 0 T 3 2]),
  (3421, [e T 0 T 0 3, e T 1 T 1 1, e F 1 T 2 5, e T 0 T 3 2]),
  (3423, [e F 0 T 0 3, e F 0 T 1 2, e F 0 T 2 2, e F 0 T 3 5]),
  (3425, [e F 0 T 0 5, e T 1 F 0 2, e F 1 T 2 7]),
  (3427, [e F 0 T 0 3, e F 0 T 1 2, e F 1 T 2 5, e F 0 T 3 2]),
  (3429, [e F 0 T 0 7, e F 1 T 1 3, e F 1 T 2 2]),
  (3431, [e T 0 T 0 1, e T 1 T 1 3, e F 1 T 2 4, e F 0 T 3 3]),
  (3433, [e T 0 T 0 1, e T 1 T 1 3, e F 1 T 2 4, e T 0 T 3 3]),
  (3435, [e T 0 T 0 2, e F 1 T 0 5, e F 1 T 2 5, e F 0 T 3 2]),
  (3437, [e T 0 T 0 2, e F 1 T 0 5, e F 1 T 2 5, e T 0 T 3 2]),
  (3439, [e F 0 T 0 3, e F 0 T 1 2, e F 0 T 2 3, e F 0 T 3 4]),
  (3441, [e F 0 T 0 5, e F 1 T 1 3, e F 1 T 2 4]),
  (3443, [e T 0 T 0 1, e T 1 T 1 3, e F 1 T 2 5, e F 0 T 3 2]),
  (3445, [e T 0 T 0 1, e T 1 T 1 3, e F 1 T 2 5, e T 0 T 3 2]),
  (3447, [e T 0 T 0 3, e T 1 T 1 1, e F 1 T 2 7]),
  (3449, [e F 0 T 0 3, e F 0 T 1 2, e F 1 T 2 7]),
  (3451, [e T 0 T 0 2, e F 1 T 0 5, e F 1 T 2 7]),
  (3453, [e T 0 T 0 1, e T 1 T 1 3, e F 1 T 2 7]),
  (3455, [e F 0 T 0 3, e F 0 T 1 2, e F 0 T 2 7])]

/-- `/repo/assets/asc-12.yaml`, entries 1728–1791 -/
def part27 : List (Nat × Asc) := [
  (3457, [e F 0 T 0 3, e F 0 T 1 2, e T 0 T 2 7]),
  (3459, [e T 0 T 0 1, e T 1 T 1 3, e T 1 T 2 7]),
  (3461, [e T 0 T 0 2, e F 1 T 0 5, e T 1 T 2 7]),
  (3463, [e F 0 T 0 3, e F 0 T 1 2, e T 1 T 2 7]),
  (3465, [e T 0 T 0 3, e T 1 T 1 1, e T 1 T 2 7]),
  (3467, [e F 0 T 0 3, e F 1 T 1 5, e F 0 T 2 2, e F 0 T 3 2]),
  (3469, [e F 0 T 0 3, e F 1 T 1 5, e F 0 T 2 2, e T 0 T 3 2]),
  (3471, [e F 0 T 0 3, e F 1 T 1 5, e F 0 T 2 4]),
  (3473, [e F 0 T 0 3, e F 1 T 1 5, e T 0 T 2 4]),
  (3475, [e F 0 T 0 3, e F 1 T 1 5, e T 0 T 2 2, e F 0 T 3 2]),
  (3477, [e F 0 T 0 3, e F 1 T 1 5, e T 0 T 2 2, e T 0 T 3 2]),
  (3479, [e F 0 T 0 3, e F 1 T 1 5, e T 1 T 2 4]),
  (3481, [e F 0 T 0 3, e F 1 T 1 5, e T 0 T 2 1, e T 0 T 3 3]),
  (3483, [e T 0 T 0 7, e F 1 T 1 3, e F 1 T 2 2]),
  (3485, [e T 0 T 0 3, e F 1 T 0 6, e F 1 T 2 4, e T 0 T 3 2]),
  (3487, [e F 0 T 0 5, e T 1 F 0 2, e T 1 T 2 7]),
  (3489, [e F 0 T 0 3, e F 0 T 1 2, e T 0 T 2 2, e T 0 T 3 5]),
  (3491, [e T 0 T 0 3, e T 1 T 1 1, e T 1 T 2 5, e F 0 T 3 2]),
  (3493, [e T 0 T 0 3, e T 1 T 1 1, e T 1 T 2 5, e T 0 T 3 2]),
  (3495, [e T 0 T 0 2, e F 1 T 0 5, e T 1 T 2 4, e F 0 T 3 3]),
  (3497, [e T 0 T 0 2, e F 1 T 0 5, e T 1 T 2 4, e T 0 T 3 3]),
  (3499, [e F 0 T 0 3, e F 1 T 1 5, e T 1 T 2 2, e F 0 T 3 2]),
  (3501, [e T 0 T 0 3, e F 1 T 0 6, e F 1 T 2 5, e F 0 T 3 1]),
  (3503, [e F 0 T 0 5, e F 1 T 1 3, e T 1 T 2 4]),
  (3505, [e F 0 T 0 3, e F 0 T 1 3, e F 0 T 2 2, e T 0 T 3 4]),
  (3507, [e F 0 T 0 3, e F 0 T 1 3, e F 1 T 2 5, e T 0 T 3 1]),
  (3509, [e T 0 T 0 6, e F 1 T 1 3, e F 1 T 2 2, e F 0 T 3 1]),
  (3511, [e T 0 T 0 3, e F 1 T 0 6, e F 1 T 2 6]),
  (3513, [e F 0 T 0 3, e F 0 T 1 3, e F 1 T 2 6]),
  (3515, [e F 0 T 0 3, e F 0 T 1 3, e F 0 T 2 4, e F 0 T 3 2]),
  (3517, [e F 0 T 0 3, e F 0 T 1 3, e F 0 T 2 4, e T 0 T 3 2]),
  (3519, [e F 0 T 0 3, e F 0 T 1 3, e F 0 T 2 6]),
  (3521, [e F 0 T 0 3, e F 0 T 1 3, e T 0 T 2 6]),
  (3523, [e F 0 T 0 3, e F 0 T 1 3, e T 0 T 2 4, e F 0 T 3 2]),
  (3525, [e F 0 T 0 3, e F 0 T 1 3, e T 0 T 2 4, e T 0 T 3 2]),
  (3527, [e F 0 T 0 3, e F 1 T 1 6, e F 0 T 2 3]),
  (3529, [e F 0 T 0 3, e F 1 T 1 6, e T 0 T 2 3]),
  (3531, [e F 0 T 0 3, e F 1 T 1 6, e T 0 T 2 1, e F 0 T 3 2]),
  (3533, [e F 0 T 0 3, e F 1 T 1 6, e T 0 T 2 1, e T 0 T 3 2]),
  (3535, [e F 0 T 0 3, e F 1 T 1 6, e T 1 T 2 3]),
  (3537, [e F 0 T 0 3, e F 0 T 1 3, e T 0 T 2 2, e T 0 T 3 4]),
  (3539, [e T 0 T 0 3, e F 1 T 0 6, e T 1 T 2 5, e T 0 T 3 1]),
  (3541, [e F 0 T 0 3, e F 0 T 1 5, e F 1 T 2 2, e T 0 T 3 2]),
  (3543, [e F 0 T 0 3, e F 0 T 1 4, e F 0 T 2 2, e F 0 T 3 3]),
  (3545, [e F 0 T 0 3, e F 0 T 1 4, e F 1 T 2 5]),
  (3547, [e F 0 T 0 3, e F 0 T 1 4, e F 0 T 2 3, e F 0 T 3 2]),
  (3549, [e F 0 T 0 3, e F 1 T 1 7, e F 1 T 2 2]),
  (3551, [e F 0 T 0 3, e F 0 T 1 4, e F 0 T 2 5]),
  (3553, [e F 0 T 0 3, e F 0 T 1 4, e T 0 T 2 5]),
  (3555, [e F 0 T 0 3, e F 1 T 1 7, e F 0 T 2 2]),
  (3557, [e F 0 T 0 3, e F 1 T 1 7, e T 0 T 2 2]),
  (3559, [e F 0 T 0 3, e F 0 T 1 4, e T 1 T 2 5]),
  (3561, [e F 0 T 0 3, e F 0 T 1 5, e F 1 T 2 4]),
  (3563, [e F 0 T 0 3, e F 1 T 1 7, e T 1 T 2 2]),
  (3565, [e F 0 T 0 3, e F 0 T 1 5, e F 0 T 2 2, e T 0 T 3 2]),
  (3567, [e F 0 T 0 3, e F 0 T 1 5, e F 0 T 2 4]),
  (3569, [e F 0 T 0 3, e F 0 T 1 5, e T 0 T 2 4]),
  (3571, [e F 0 T 0 3, e F 1 T 1 8, e T 0 T 2 1]),
  (3573, [e F 0 T 0 3, e F 0 T 1 7, e F 1 T 2 2]),
  (3575, [e F 0 T 0 3, e F 0 T 1 6, e F 0 T 2 3]),
  (3577, [e F 0 T 0 3, e F 1 T 1 9]),
  (3579, [e F 0 T 0 3, e F 0 T 1 7, e F 0 T 2 2]),
  (3581, [e F 0 T 0 3, e F 0 T 1 7, e T 0 T 2 2]),
  (3583, [e F 0 T 0 3, e F 0 T 1 9])]

/-- `/repo/assets/asc-12.yaml`, entries 1792–1855 -/
def part28 : List (Nat × Asc) := [
  (3585, [e F 0 T 0 3, e T 0 T 1 9]),
  (3587, [e F 0 T 0 3, e T 0 T 1 7, e F 0 T 2 2]),
  (3589, [e F 0 T 0 3, e T 0 T 1 7, e T 0 T 2 2]),
  (3591, [e F 0 T 0 3, e T 1 T 1 9]),
  (3593, [e F 0 T 0 3, e T 0 T 1 6, e T 0 T 2 3]),
  (3595, [e F 0 T 0 3, e T 0 T 1 7, e T 1 T 2 2]),
  (3597, [e F 0 T 0 3, e T 1 T 1 8, e F 0 T 2 1]),
  (3599, [e F 0 T 0 3, e T 0 T 1 5, e F 0 T 2 4]),
  (3601, [e F 0 T 0 3, e T 0 T 1 5, e T 0 T 2 4]),
  (3603, [e F 0 T 0 3, e T 0 T 1 5, e T 0 T 2 2, e F 0 T 3 2]),
  (3605, [e F 0 T 0 3, e T 1 T 1 7, e F 1 T 2 2]),
  (3607, [e F 0 T 0 3, e T 0 T 1 5, e T 1 T 2 4]),
  (3609, [e F 0 T 0 3, e T 0 T 1 4, e F 1 T 2 5]),
  (3611, [e F 0 T 0 3, e T 1 T 1 7, e F 0 T 2 2]),
  (3613, [e F 0 T 0 3, e T 1 T 1 7, e T 0 T 2 2]),
  (3615, [e F 0 T 0 3, e T 0 T 1 4, e F 0 T 2 5]),
  (3617, [e F 0 T 0 3, e T 0 T 1 4, e T 0 T 2 5]),
  (3619, [e F 0 T 0 3, e T 1 T 1 7, e T 1 T 2 2]),
  (3621, [e F 0 T 0 3, e T 0 T 1 4, e T 0 T 2 3, e T 0 T 3 2]),
  (3623, [e F 0 T 0 3, e T 0 T 1 4, e T 1 T 2 5]),
  (3625, [e F 0 T 0 3, e T 0 T 1 4, e T 0 T 2 2, e T 0 T 3 3]),
  (3627, [e F 0 T 0 3, e T 0 T 1 5, e T 1 T 2 2, e F 0 T 3 2]),
  (3629, [e F 0 T 0 3, e T 0 T 1 4, e T 1 T 2 4, e F 0 T 3 1]),
  (3631, [e F 0 T 0 4, e F 1 T 0 7, e T 1 T 2 5]),
  (3633, [e F 0 T 0 3, e T 1 T 1 6, e F 1 T 2 3]),
  (3635, [e F 0 T 0 3, e T 1 T 1 6, e F 0 T 2 1, e F 0 T 3 2]),
  (3637, [e F 0 T 0 3, e T 1 T 1 6, e F 0 T 2 1, e T 0 T 3 2]),
  (3639, [e F 0 T 0 3, e T 1 T 1 6, e F 0 T 2 3]),
  (3641, [e F 0 T 0 3, e T 1 T 1 6, e T 0 T 2 3]),
  (3643, [e F 0 T 0 3, e T 0 T 1 3, e F 0 T 2 4, e F 0 T 3 2]),
  (3645, [e F 0 T 0 3, e T 0 T 1 3, e F 0 T 2 4, e T 0 T 3 2]),
  (3647, [e F 0 T 0 3, e T 0 T 1 3, e F 0 T 2 6]),
  (3649, [e F 0 T 0 3, e T 0 T 1 3, e T 0 T 2 6]),
  (3651, [e F 0 T 0 3, e T 0 T 1 3, e T 0 T 2 4, e F 0 T 3 2]),
  (3653, [e F 0 T 0 3, e T 0 T 1 3, e T 0 T 2 4, e T 0 T 3 2]),
  (3655, [e F 0 T 0 3, e T 0 T 1 3, e T 1 T 2 6]),
  (3657, [e F 0 T 0 3, e T 0 T 1 3, e T 0 T 2 3, e T 0 T 3 3]),
  (3659, [e F 0 T 0 4, e F 1 T 1 4, e T 1 T 2 2, e F 0 T 3 2]),
  (3661, [e F 0 T 0 3, e T 0 T 1 3, e T 1 T 2 5, e F 0 T 3 1]),
  (3663, [e T 0 T 0 5, e F 1 T 1 3, e F 1 T 2 4]),
  (3665, [e F 0 T 0 3, e T 0 T 1 3, e T 0 T 2 2, e T 0 T 3 4]),
  (3667, [e F 0 T 0 3, e T 1 T 1 5, e F 1 T 2 2, e F 0 T 3 2]),
  (3669, [e F 0 T 0 3, e T 1 T 1 5, e F 1 T 2 2, e T 0 T 3 2]),
  (3671, [e F 0 T 0 3, e T 0 T 1 4, e T 1 T 2 2, e F 0 T 3 3]),
  (3673, [e F 0 T 0 3, e T 0 T 1 4, e T 1 T 2 2, e T 0 T 3 3]),
  (3675, [e F 0 T 0 3, e T 0 T 1 3, e T 1 T 2 4, e F 0 T 3 2]),
  (3677, [e F 0 T 0 3, e T 0 T 1 3, e T 1 T 2 4, e T 0 T 3 2]),
  (3679, [e T 0 T 0 5, e T 1 F 0 2, e F 1 T 2 7]),
  (3681, [e F 0 T 0 5, e T 1 F 0 1, e F 1 T 2 7]),
  (3683, [e F 0 T 0 7, e F 1 T 1 3, e T 1 T 2 2]),
  (3685, [e F 0 T 0 3, e T 0 T 1 2, e F 1 T 2 5, e T 0 T 3 2]),
  (3687, [e F 0 T 0 3, e T 1 T 1 5, e F 0 T 2 1, e F 0 T 3 3]),
  (3689, [e F 0 T 0 3, e T 1 T 1 5, e F 1 T 2 4]),
  (3691, [e F 0 T 0 3, e T 1 T 1 5, e F 0 T 2 2, e F 0 T 3 2]),
  (3693, [e F 0 T 0 3, e T 1 T 1 5, e F 0 T 2 2, e T 0 T 3 2]),
  (3695, [e F 0 T 0 3, e T 1 T 1 5, e F 0 T 2 4]),
  (3697, [e F 0 T 0 3, e T 1 T 1 5, e T 0 T 2 4]),
  (3699, [e F 0 T 0 3, e T 1 T 1 5, e T 0 T 2 2, e F 0 T 3 2]),
  (3701, [e F 0 T 0 3, e T 1 T 1 5, e T 0 T 2 2, e T 0 T 3 2]),
  (3703, [e F 0 T 0 3, e T 1 T 1 5, e T 1 T 2 4]),
  (3705, [e F 0 T 0 3, e T 0 T 1 2, e F 1 T 2 7]),
  (3707, [e F 0 T 0 3, e T 0 T 1 2, e F 0 T 2 5, e F 0 T 3 2]),
  (3709, [e T 0 T 0 1, e F 1 T 0 5, e F 1 T 2 7]),
  (3711, [e F 0 T 0 3, e T 0 T 1 2, e F 0 T 2 7])]

/-- `/repo/assets/asc-12.yaml`, entries 1856–1919 -/
def part29 : List (Nat × Asc) := [
  (3713, [e F 0 T 0 3, e T 0 T 1 2, e T 0 T 2 7]),
  (3715, [e T 0 T 0 1, e F 1 T 0 5, e T 1 T 2 7]),
  (3717, [e F 0 T 0 6, e F 1 T 1 4, e F 1 T 2 2]),
  (3719, [e F 0 T 0 4, e F 1 T 1 5, e F 0 T 2 3]),
  (3721, [e F 0 T 0 4, e F 1 T 1 5, e T 0 T 2 3]),
  (3723, [e F 0 T 0 4, e F 1 T 1 5, e T 0 T 2 1, e F 0 T 3 2]),
  (3725, [e F 0 T 0 4, e F 1 T 1 5, e T 0 T 2 1, e T 0 T 3 2]),
  (3727, [e F 0 T 0 4, e F 0 T 1 1, e T 1 T 2 7]),
  (3729, [e T 0 T 0 5, e F 1 T 1 3, e T 1 T 2 4]),
  (3731, [e T 0 T 0 1, e F 1 T 0 5, e T 0 T 2 3, e T 1 T 3 4]),
  (3733, [e T 0 T 0 1, e F 1 T 0 5, e T 1 T 2 4, e F 1 T 3 3]),
  (3735, [e F 0 T 0 4, e F 1 T 1 5, e T 1 T 2 3]),
  (3737, [e T 0 T 0 1, e F 1 T 0 5, e T 1 T 2 4, e T 0 T 3 3]),
  (3739, [e F 0 T 0 3, e T 0 T 1 2, e T 1 T 2 5, e F 0 T 3 2]),
  (3741, [e T 0 T 0 7, e F 1 T 1 3, e T 1 T 2 2]),
  (3743, [e F 0 T 0 5, e T 1 F 0 1, e T 1 T 2 7]),
  (3745, [e T 0 T 0 5, e T 1 F 0 2, e T 1 T 2 7]),
  (3747, [e F 0 T 0 4, e F 0 T 1 2, e F 1 T 2 5, e T 0 T 3 1]),
  (3749, [e F 0 T 0 4, e F 0 T 1 3, e F 1 T 2 3, e T 0 T 3 2]),
  (3751, [e F 0 T 0 5, e F 1 T 1 4, e T 1 T 2 3]),
  (3753, [e F 0 T 0 3, e T 1 T 1 4, e F 1 T 2 2, e T 0 T 3 3]),
  (3755, [e T 0 T 0 2, e F 1 T 0 6, e F 1 T 2 4, e F 0 T 3 2]),
  (3757, [e T 0 T 0 2, e F 1 T 0 6, e F 1 T 2 4, e T 0 T 3 2]),
  (3759, [e F 0 T 0 4, e F 0 T 1 2, e F 0 T 2 2, e F 0 T 3 4]),
  (3761, [e F 0 T 0 4, e F 0 T 1 2, e F 1 T 2 6]),
  (3763, [e F 0 T 0 4, e F 0 T 1 4, e F 1 T 2 2, e F 0 T 3 2]),
  (3765, [e F 0 T 0 4, e F 1 T 1 6, e F 1 T 2 2]),
  (3767, [e F 0 T 0 4, e F 0 T 1 2, e F 0 T 2 3, e F 0 T 3 3]),
  (3769, [e F 0 T 0 4, e F 0 T 1 2, e F 0 T 2 3, e T 0 T 3 3]),
  (3771, [e T 0 T 0 2, e F 1 T 0 6, e F 1 T 2 6]),
  (3773, [e F 0 T 0 4, e F 0 T 1 2, e F 0 T 2 4, e T 0 T 3 2]),
  (3775, [e F 0 T 0 4, e F 0 T 1 2, e F 0 T 2 6]),
  (3777, [e F 0 T 0 4, e F 0 T 1 2, e T 0 T 2 6]),
  (3779, [e F 0 T 0 4, e F 1 T 1 6, e F 0 T 2 2]),
  (3781, [e F 0 T 0 4, e F 1 T 1 6, e T 0 T 2 2]),
  (3783, [e F 0 T 0 4, e F 0 T 1 2, e T 0 T 2 3, e F 0 T 3 3]),
  (3785, [e F 0 T 0 4, e F 0 T 1 2, e T 0 T 2 3, e T 0 T 3 3]),
  (3787, [e T 0 T 0 2, e F 1 T 0 6, e T 1 T 2 5, e T 0 T 3 1]),
  (3789, [e T 0 T 0 3, e F 1 T 0 7, e F 1 T 2 4, e F 0 T 3 1]),
  (3791, [e T 0 T 0 4, e F 1 T 1 3, e F 1 T 2 5]),
  (3793, [e F 0 T 0 4, e F 0 T 1 3, e F 1 T 2 5]),
  (3795, [e F 0 T 0 4, e F 1 T 1 6, e T 1 T 2 2]),
  (3797, [e T 0 T 0 2, e F 1 T 0 6, e T 1 T 2 4, e T 0 T 3 2]),
  (3799, [e T 0 T 0 3, e F 1 T 0 7, e F 1 T 2 5]),
  (3801, [e F 0 T 0 3, e T 1 T 1 4, e F 1 T 2 5]),
  (3803, [e F 0 T 0 4, e F 0 T 1 3, e F 0 T 2 3, e F 0 T 3 2]),
  (3805, [e F 0 T 0 4, e F 0 T 1 3, e F 0 T 2 3, e T 0 T 3 2]),
  (3807, [e F 0 T 0 4, e F 0 T 1 3, e F 0 T 2 5]),
  (3809, [e F 0 T 0 4, e F 0 T 1 3, e T 0 T 2 5]),
  (3811, [e F 0 T 0 4, e F 1 T 1 7, e T 0 T 2 1]),
  (3813, [e F 0 T 0 5, e F 1 T 1 5, e F 1 T 2 2]),
  (3815, [e F 0 T 0 3, e T 1 T 1 4, e T 1 T 2 5]),
  (3817, [e T 0 T 0 3, e F 1 T 0 7, e T 1 T 2 5]),
  (3819, [e F 0 T 0 4, e F 0 T 1 4, e F 0 T 2 2, e F 0 T 3 2]),
  (3821, [e F 0 T 0 4, e F 0 T 1 6, e F 1 T 2 2]),
  (3823, [e F 0 T 0 4, e F 0 T 1 4, e F 0 T 2 4]),
  (3825, [e F 0 T 0 4, e F 1 T 1 8]),
  (3827, [e F 0 T 0 4, e T 0 T 1 7, e F 1 T 2 1]),
  (3829, [e F 0 T 0 4, e T 0 T 1 6, e F 1 T 2 2]),
  (3831, [e F 0 T 0 4, e F 0 T 1 5, e F 0 T 2 3]),
  (3833, [e F 0 T 0 4, e F 0 T 1 5, e T 0 T 2 3]),
  (3835, [e F 0 T 0 4, e F 0 T 1 6, e F 0 T 2 2]),
  (3837, [e F 0 T 0 4, e F 0 T 1 6, e T 0 T 2 2]),
  (3839, [e F 0 T 0 4, e F 0 T 1 8])]

/-- `/repo/assets/asc-12.yaml`, entries 1920–1983 -/
def part30 : List (Nat × Asc) := [
  (3841, [e F 0 T 0 4, e T 0 T 1 8]),
  (3843, [e F 0 T 0 4, e T 0 T 1 6, e F 0 T 2 2]),
  (3845, [e F 0 T 0 4, e T 0 T 1 6, e T 0 T 2 2]),
  (3847, [e F 0 T 0 4, e T 0 T 1 5, e F 0 T 2 3]),
  (3849, [e F 0 T 0 4, e T 0 T 1 5, e T 0 T 2 3]),
  (3851, [e F 0 T 0 4, e F 0 T 1 6, e T 1 T 2 2]),
  (3853, [e F 0 T 0 4, e F 0 T 1 7, e T 1 T 2 1]),
  (3855, [e F 0 T 0 4, e T 1 T 1 8]),
  (3857, [e F 0 T 0 4, e T 0 T 1 4, e T 0 T 2 4]),
  (3859, [e F 0 T 0 4, e T 0 T 1 6, e T 1 T 2 2]),
  (3861, [e F 0 T 0 4, e T 0 T 1 4, e T 0 T 2 2, e T 0 T 3 2]),
  (3863, [e F 0 T 0 4, e T 0 T 1 5, e T 1 T 2 3]),
  (3865, [e F 0 T 0 3, e F 1 T 0 7, e F 1 T 2 5]),
  (3867, [e F 0 T 0 4, e T 0 T 1 3, e F 0 T 2 3, e F 0 T 3 2]),
  (3869, [e F 0 T 0 4, e T 1 T 1 7, e F 0 T 2 1]),
  (3871, [e F 0 T 0 4, e T 0 T 1 3, e F 0 T 2 5]),
  (3873, [e F 0 T 0 4, e T 0 T 1 3, e T 0 T 2 5]),
  (3875, [e F 0 T 0 5, e F 1 T 1 5, e T 1 T 2 2]),
  (3877, [e F 0 T 0 4, e T 0 T 1 3, e T 0 T 2 3, e T 0 T 3 2]),
  (3879, [e F 0 T 0 3, e F 1 T 0 7, e T 1 T 2 5]),
  (3881, [e F 0 T 0 4, e T 0 T 1 3, e T 0 T 2 2, e T 0 T 3 3]),
  (3883, [e F 0 T 0 4, e F 0 T 1 4, e T 1 T 2 2, e F 0 T 3 2]),
  (3885, [e F 0 T 0 4, e T 1 T 1 6, e F 1 T 2 2]),
  (3887, [e F 0 T 0 4, e T 0 T 1 3, e T 1 T 2 5]),
  (3889, [e F 0 T 0 4, e T 0 T 1 2, e F 1 T 2 6]),
  (3891, [e T 0 T 0 1, e F 1 T 0 6, e F 1 T 2 4, e F 0 T 3 2]),
  (3893, [e T 0 T 0 1, e F 1 T 0 6, e F 1 T 2 4, e T 0 T 3 2]),
  (3895, [e F 0 T 0 4, e T 0 T 1 2, e F 0 T 2 3, e F 0 T 3 3]),
  (3897, [e F 0 T 0 4, e T 0 T 1 2, e F 0 T 2 3, e T 0 T 3 3]),
  (3899, [e F 0 T 0 4, e T 1 T 1 6, e F 0 T 2 2]),
  (3901, [e F 0 T 0 4, e T 1 T 1 6, e T 0 T 2 2]),
  (3903, [e F 0 T 0 4, e T 0 T 1 2, e F 0 T 2 6]),
  (3905, [e F 0 T 0 4, e T 0 T 1 2, e T 0 T 2 6]),
  (3907, [e F 0 T 0 5, e F 1 T 1 6, e T 0 T 2 1]),
  (3909, [e F 0 T 0 4, e T 0 T 1 2, e T 0 T 2 4, e T 0 T 3 2]),
  (3911, [e F 0 T 0 4, e T 0 T 1 2, e T 0 T 2 3, e F 0 T 3 3]),
  (3913, [e F 0 T 0 4, e T 0 T 1 2, e T 0 T 2 3, e T 0 T 3 3]),
  (3915, [e F 0 T 0 4, e T 1 T 1 6, e T 1 T 2 2]),
  (3917, [e T 0 T 0 1, e F 1 T 0 6, e T 1 T 2 4, e T 0 T 3 2]),
  (3919, [e F 0 T 0 4, e T 0 T 1 2, e T 1 T 2 6]),
  (3921, [e F 0 T 0 5, e F 0 T 1 3, e F 1 T 2 4]),
  (3923, [e F 0 T 0 5, e T 0 T 1 3, e F 1 T 2 3, e T 0 T 3 1]),
  (3925, [e T 0 T 0 2, e F 1 T 0 7, e F 1 T 2 4, e F 0 T 3 1]),
  (3927, [e T 0 T 0 5, e F 1 T 1 4, e F 1 T 2 3]),
  (3929, [e F 0 T 0 5, e F 0 T 1 4, e F 1 T 2 3]),
  (3931, [e T 0 T 0 2, e F 1 T 0 7, e F 1 T 2 5]),
  (3933, [e F 0 T 0 5, e F 0 T 1 5, e F 1 T 2 2]),
  (3935, [e F 0 T 0 5, e F 0 T 1 2, e F 0 T 2 5]),
  (3937, [e F 0 T 0 5, e F 1 T 1 7]),
  (3939, [e F 0 T 0 5, e T 0 T 1 6, e F 1 T 2 1]),
  (3941, [e T 0 T 0 2, e F 1 T 0 7, e T 1 T 2 5]),
  (3943, [e T 0 T 0 3, e F 1 T 0 8, e F 1 T 2 4]),
  (3945, [e F 0 T 0 4, e T 1 T 1 5, e F 1 T 2 3]),
  (3947, [e F 0 T 0 5, e F 0 T 1 3, e F 0 T 2 2, e F 0 T 3 2]),
  (3949, [e F 0 T 0 5, e F 0 T 1 3, e F 0 T 2 2, e T 0 T 3 2]),
  (3951, [e F 0 T 0 5, e F 0 T 1 3, e F 0 T 2 4]),
  (3953, [e F 0 T 0 5, e F 0 T 1 3, e T 0 T 2 4]),
  (3955, [e F 0 T 0 5, e F 0 T 1 3, e T 0 T 2 2, e F 0 T 3 2]),
  (3957, [e F 0 T 0 5, e F 0 T 1 3, e T 0 T 2 2, e T 0 T 3 2]),
  (3959, [e F 0 T 0 5, e F 0 T 1 4, e F 0 T 2 3]),
  (3961, [e F 0 T 0 5, e F 0 T 1 4, e T 0 T 2 3]),
  (3963, [e F 0 T 0 5, e F 0 T 1 5, e F 0 T 2 2]),
  (3965, [e F 0 T 0 5, e F 0 T 1 5, e T 0 T 2 2]),
  (3967, [e F 0 T 0 5, e F 0 T 1 7])]

/-- `/repo/assets/asc-12.yaml`, entries 1984–2047 -/
def part31 : List (Nat × Asc) := [
  (3969, [e F 0 T 0 5, e T 0 T 1 7]),
  (3971, [e F 0 T 0 5, e T 0 T 1 5, e F 0 T 2 2]),
  (3973, [e F 0 T 0 5, e T 0 T 1 5, e T 0 T 2 2]),
  (3975, [e F 0 T 0 5, e T 0 T 1 4, e F 0 T 2 3]),
  (3977, [e F 0 T 0 5, e T 0 T 1 4, e T 0 T 2 3]),
  (3979, [e F 0 T 0 5, e T 0 T 1 3, e F 0 T 2 2, e F 0 T 3 2]),
  (3981, [e F 0 T 0 5, e T 0 T 1 3, e F 0 T 2 2, e T 0 T 3 2]),
  (3983, [e F 0 T 0 5, e T 0 T 1 3, e F 0 T 2 4]),
  (3985, [e F 0 T 0 5, e T 0 T 1 3, e T 0 T 2 4]),
  (3987, [e F 0 T 0 5, e T 0 T 1 3, e T 0 T 2 2, e F 0 T 3 2]),
  (3989, [e F 0 T 0 5, e T 0 T 1 3, e T 0 T 2 2, e T 0 T 3 2]),
  (3991, [e F 0 T 0 3, e F 1 T 0 8, e T 1 T 2 4]),
  (3993, [e T 0 T 0 5, e F 1 T 1 4, e T 1 T 2 3]),
  (3995, [e F 0 T 0 5, e F 0 T 1 5, e T 1 T 2 2]),
  (3997, [e T 0 T 0 1, e F 1 T 0 7, e F 1 T 2 5]),
  (3999, [e F 0 T 0 5, e T 1 T 1 7]),
  (4001, [e F 0 T 0 5, e T 0 T 1 2, e T 0 T 2 5]),
  (4003, [e T 0 T 0 1, e F 1 T 0 7, e T 1 T 2 5]),
  (4005, [e F 0 T 0 5, e T 0 T 1 2, e T 0 T 2 3, e T 0 T 3 2]),
  (4007, [e F 0 T 0 5, e T 0 T 1 4, e T 1 T 2 3]),
  (4009, [e F 0 T 0 5, e T 0 T 1 2, e T 0 T 2 2, e T 0 T 3 3]),
  (4011, [e T 0 T 0 2, e F 1 T 0 8, e F 1 T 2 4]),
  (4013, [e F 0 T 0 6, e F 0 T 1 2, e F 0 T 2 2, e T 0 T 3 2]),
  (4015, [e F 0 T 0 6, e F 0 T 1 2, e F 0 T 2 4]),
  (4017, [e F 0 T 0 6, e F 0 T 1 2, e T 0 T 2 4]),
  (4019, [e F 0 T 0 6, e F 0 T 1 2, e T 0 T 2 2, e F 0 T 3 2]),
  (4021, [e T 0 T 0 2, e F 1 T 0 8, e T 1 T 2 4]),
  (4023, [e F 0 T 0 6, e F 0 T 1 3, e F 0 T 2 3]),
  (4025, [e F 0 T 0 6, e F 0 T 1 3, e T 0 T 2 3]),
  (4027, [e F 0 T 0 6, e F 0 T 1 4, e F 0 T 2 2]),
  (4029, [e F 0 T 0 6, e F 0 T 1 4, e T 0 T 2 2]),
  (4031, [e F 0 T 0 6, e F 0 T 1 6]),
  (4033, [e F 0 T 0 6, e T 0 T 1 6]),
  (4035, [e F 0 T 0 6, e T 0 T 1 4, e F 0 T 2 2]),
  (4037, [e F 0 T 0 6, e T 0 T 1 4, e T 0 T 2 2]),
  (4039, [e F 0 T 0 6, e T 0 T 1 3, e F 0 T 2 3]),
  (4041, [e F 0 T 0 6, e T 0 T 1 3, e T 0 T 2 3]),
  (4043, [e F 0 T 0 6, e T 0 T 1 2, e F 0 T 2 2, e F 0 T 3 2]),
  (4045, [e T 0 T 0 1, e F 1 T 0 8, e F 1 T 2 4]),
  (4047, [e F 0 T 0 6, e T 0 T 1 2, e F 0 T 2 4]),
  (4049, [e F 0 T 0 6, e T 0 T 1 2, e T 0 T 2 4]),
  (4051, [e T 0 T 0 1, e F 1 T 0 8, e T 1 T 2 4]),
  (4053, [e F 0 T 0 6, e T 0 T 1 2, e T 0 T 2 2, e T 0 T 3 2]),
  (4055, [e F 0 T 0 7, e F 0 T 1 2, e F 0 T 2 3]),
  (4057, [e F 0 T 0 7, e F 0 T 1 2, e T 0 T 2 3]),
  (4059, [e F 0 T 0 7, e F 0 T 1 3, e F 0 T 2 2]),
  (4061, [e F 0 T 0 7, e F 0 T 1 3, e T 0 T 2 2]),
  (4063, [e F 0 T 0 7, e F 0 T 1 5]),
  (4065, [e F 0 T 0 7, e T 0 T 1 5]),
  (4067, [e F 0 T 0 7, e T 0 T 1 3, e F 0 T 2 2]),
  (4069, [e F 0 T 0 7, e T 0 T 1 3, e T 0 T 2 2]),
  (4071, [e F 0 T 0 7, e T 0 T 1 2, e F 0 T 2 3]),
  (4073, [e F 0 T 0 7, e T 0 T 1 2, e T 0 T 2 3]),
  (4075, [e F 0 T 0 8, e F 0 T 1 2, e F 0 T 2 2]),
  (4077, [e F 0 T 0 8, e F 0 T 1 2, e T 0 T 2 2]),
  (4079, [e F 0 T 0 8, e F 0 T 1 4]),
  (4081, [e F 0 T 0 8, e T 0 T 1 4]),
  (4083, [e F 0 T 0 8, e T 0 T 1 2, e F 0 T 2 2]),
  (4085, [e F 0 T 0 8, e T 0 T 1 2, e T 0 T 2 2]),
  (4087, [e F 0 T 0 9, e F 0 T 1 3]),
  (4089, [e F 0 T 0 9, e T 0 T 1 3]),
  (4091, [e F 0 T 0 10, e F 0 T 1 2]),
  (4093, [e F 0 T 0 10, e T 0 T 1 2]),
  (4095, [e F 0 T 0 12])]

end Asc12

/-- `/repo/assets/asc-12.yaml` as parsed by `map_from_yaml`, `/repo/src/cloudovo/scalar_multiplication/asc.rs:92-129` -/
def asc12 : List (Nat × Asc) :=
  Asc12.part0 ++ Asc12.part1 ++ Asc12.part2 ++ Asc12.part3 ++ Asc12.part4 ++ Asc12.part5 ++ Asc12.part6 ++ Asc12.part7 ++ Asc12.part8 ++ Asc12.part9 ++ Asc12.part10 ++ Asc12.part11 ++ Asc12.part12 ++ Asc12.part13 ++ Asc12.part14 ++ Asc12.part15 ++ Asc12.part16 ++ Asc12.part17 ++ Asc12.part18 ++ Asc12.part19 ++ Asc12.part20 ++ Asc12.part21 ++ Asc12.part22 ++ Asc12.part23 ++ Asc12.part24 ++ Asc12.part25 ++ Asc12.part26 ++ Asc12.part27 ++ Asc12.part28 ++ Asc12.part29 ++ Asc12.part30 ++ Asc12.part31

end Parm
