/-!
# The tables of the built-in character functions

Generated from /repo/src/colorer/strings/legacy/x_tables.h and x_charcategory2.h by a script that copies the numbers.
-/
namespace Verif.Chars

/-- `arr_idxCharInfo`, x_tables.h 8-10, in rows -/
def idxInfo : List (List Nat) := [
  [1, 1, 2, 3, 4, 5, 6, 7, 1, 1, 8, 9, 10, 11, 12, 13, 14, 14, 14, 15, 16, 14, 14, 17, 18, 19, 20, 21, 22, 23, 14, 24],
  [14, 14, 25, 26, 0, 27, 28, 29, 30, 31, 32, 33, 34, 34, 35, 0, 36, 37, 38, 39, 40, 0, 41, 42, 43, 44, 45, 46, 47, 48, 14, 49],
  [50, 10, 10, 12, 12, 51, 14, 14, 52, 14, 14, 14, 53, 14, 14, 54, 14, 0, 0, 55, 56, 57, 58, 59, 60, 61, 62, 63, 64, 65, 66, 67],
  [68, 69, 70, 66, 71, 72, 73, 74, 65, 65, 65, 65, 65, 75, 76, 77, 78, 79, 80, 81, 82, 0, 0, 0, 65, 65, 83, 84, 0, 0, 0, 0],
  [0, 0, 0, 0, 0, 0, 0, 0, 0, 0, 0, 0, 0, 0, 0, 0, 85, 65, 65, 86, 87, 88, 89, 90, 91, 92, 93, 94, 95, 96, 97, 98],
  [99, 92, 93, 100, 101, 102, 103, 104, 105, 106, 93, 107, 108, 109, 110, 0, 91, 92, 93, 111, 112, 113, 114, 115, 116, 117, 118, 119, 120, 121, 122, 123],
  [124, 125, 93, 126, 127, 128, 114, 0, 129, 125, 93, 130, 131, 132, 114, 0, 129, 125, 93, 133, 134, 121, 114, 0, 135, 136, 65, 137, 138, 139, 0, 140],
  [70, 65, 65, 141, 142, 143, 0, 0, 144, 145, 146, 147, 148, 149, 0, 0, 150, 151, 152, 153, 154, 65, 66, 155, 156, 157, 158, 159, 160, 0, 0, 0],
  [65, 65, 161, 162, 163, 164, 0, 0, 0, 0, 165, 165, 166, 65, 65, 167, 65, 65, 65, 65, 65, 168, 65, 65, 65, 65, 169, 65, 65, 65, 65, 170],
  [171, 65, 65, 65, 172, 172, 65, 65, 172, 65, 173, 174, 174, 171, 173, 65, 173, 174, 65, 65, 171, 66, 175, 176, 0, 0, 65, 65, 65, 65, 65, 177],
  [70, 65, 65, 65, 65, 65, 65, 65, 65, 65, 65, 65, 65, 65, 65, 65, 65, 65, 65, 65, 65, 65, 65, 65, 65, 65, 65, 65, 65, 65, 65, 65],
  [65, 65, 65, 65, 65, 65, 178, 179, 180, 181, 65, 65, 65, 65, 182, 183, 184, 185, 65, 186, 65, 187, 184, 188, 65, 65, 65, 189, 190, 191, 192, 0],
  [193, 192, 65, 65, 194, 65, 65, 195, 65, 65, 196, 0, 0, 0, 0, 0, 0, 0, 0, 0, 0, 0, 0, 0, 0, 0, 0, 0, 0, 0, 0, 0],
  [0, 0, 0, 0, 0, 0, 0, 0, 0, 0, 0, 0, 0, 0, 0, 0, 0, 0, 0, 0, 0, 0, 0, 0, 0, 0, 0, 0, 0, 0, 0, 0],
  [0, 0, 0, 0, 0, 0, 0, 0, 0, 0, 0, 0, 0, 0, 0, 0, 0, 0, 0, 0, 0, 0, 0, 0, 0, 0, 0, 0, 0, 0, 0, 0],
  [14, 14, 14, 14, 14, 14, 14, 14, 14, 197, 14, 14, 14, 14, 14, 198, 199, 200, 199, 199, 200, 201, 199, 202, 203, 203, 203, 204, 205, 206, 207, 208],
  [209, 210, 211, 212, 213, 214, 215, 216, 217, 0, 218, 219, 0, 220, 221, 0, 222, 223, 224, 225, 226, 227, 228, 229, 230, 231, 232, 233, 234, 235, 233, 236],
  [237, 238, 239, 240, 241, 242, 243, 244, 245, 246, 247, 248, 249, 250, 251, 244, 252, 233, 253, 233, 233, 233, 233, 254, 233, 255, 256, 257, 258, 0, 0, 0],
  [233, 233, 259, 0, 260, 0, 261, 261, 261, 262, 233, 263, 264, 265, 266, 267, 233, 233, 233, 233, 233, 233, 233, 233, 233, 233, 233, 268, 269, 233, 233, 270],
  [233, 271, 233, 233, 233, 233, 272, 273, 274, 0, 0, 0, 0, 0, 0, 0, 275, 233, 276, 233, 277, 278, 279, 280, 261, 281, 233, 282, 0, 283, 284, 256],
  [233, 233, 233, 233, 233, 233, 233, 233, 233, 233, 233, 233, 233, 233, 233, 233, 256, 256, 256, 256, 256, 256, 256, 256, 285, 286, 244, 287, 288, 289, 290, 291],
  [292, 293, 294, 295, 256, 296, 297, 298, 244, 244, 299, 244, 244, 300, 301, 302, 0, 0, 0, 0, 0, 0, 0, 0, 0, 0, 0, 0, 0, 0, 0, 0],
  [0, 0, 0, 0, 0, 0, 0, 0, 0, 0, 0, 0, 0, 0, 0, 0, 0, 0, 0, 0, 0, 0, 0, 0, 0, 0, 0, 0, 0, 0, 0, 0],
  [0, 0, 0, 0, 0, 0, 0, 0, 233, 303, 233, 233, 233, 233, 233, 304, 233, 233, 233, 233, 233, 233, 233, 233, 233, 233, 233, 233, 233, 305, 0, 306],
  [307, 308, 309, 310, 70, 65, 65, 65, 65, 311, 312, 65, 65, 65, 65, 313, 314, 65, 80, 70, 65, 65, 65, 65, 173, 315, 65, 195, 0, 0, 0, 65],
  [233, 316, 317, 233, 304, 318, 233, 319, 317, 233, 233, 320, 306, 233, 233, 258, 233, 233, 233, 233, 233, 233, 233, 321, 233, 233, 233, 233, 233, 273, 233, 258],
  [65, 65, 65, 65, 65, 65, 65, 65, 65, 65, 65, 65, 65, 65, 65, 65, 65, 65, 65, 65, 65, 65, 65, 65, 65, 65, 65, 65, 65, 65, 65, 65],
  [65, 65, 65, 65, 65, 65, 65, 65, 65, 65, 65, 65, 65, 65, 65, 65, 65, 65, 65, 65, 65, 65, 65, 65, 65, 65, 65, 65, 65, 65, 65, 65],
  [65, 65, 65, 65, 65, 65, 65, 65, 65, 65, 65, 65, 65, 65, 65, 65, 65, 65, 65, 65, 65, 65, 65, 65, 65, 65, 65, 65, 65, 65, 65, 65],
  [65, 65, 65, 65, 65, 65, 65, 65, 65, 65, 65, 65, 65, 65, 65, 65, 65, 65, 65, 65, 65, 65, 65, 65, 65, 65, 65, 65, 65, 65, 65, 65],
  [65, 65, 65, 65, 65, 65, 65, 65, 65, 65, 65, 65, 65, 65, 65, 65, 65, 65, 65, 65, 65, 65, 65, 65, 65, 65, 65, 65, 65, 65, 65, 65],
  [65, 65, 65, 65, 65, 65, 65, 65, 65, 65, 65, 65, 65, 65, 65, 65, 65, 65, 65, 65, 65, 65, 65, 65, 65, 65, 65, 65, 65, 65, 65, 65],
  [65, 65, 65, 65, 65, 65, 65, 65, 65, 65, 65, 65, 65, 65, 65, 65, 65, 65, 65, 65, 65, 65, 65, 65, 65, 65, 65, 65, 65, 65, 65, 65],
  [65, 65, 65, 65, 65, 65, 65, 65, 65, 65, 65, 65, 65, 65, 65, 65, 65, 65, 65, 65, 65, 65, 65, 65, 65, 65, 65, 65, 65, 65, 65, 65],
  [65, 65, 65, 65, 65, 65, 65, 65, 65, 65, 65, 65, 65, 65, 65, 65, 65, 65, 65, 65, 65, 65, 65, 65, 65, 65, 65, 65, 65, 65, 65, 65],
  [65, 65, 65, 65, 65, 65, 65, 65, 65, 65, 65, 65, 65, 65, 65, 65, 65, 65, 65, 65, 65, 65, 65, 65, 65, 65, 65, 65, 65, 65, 65, 65],
  [65, 65, 65, 65, 65, 65, 65, 65, 65, 65, 65, 65, 65, 65, 65, 65, 65, 65, 65, 65, 65, 65, 65, 65, 65, 65, 65, 65, 65, 65, 65, 65],
  [65, 65, 65, 65, 65, 65, 65, 65, 65, 65, 65, 65, 65, 65, 65, 65, 65, 65, 65, 65, 65, 65, 65, 65, 65, 65, 65, 65, 65, 65, 65, 65],
  [65, 65, 65, 65, 65, 65, 65, 65, 65, 65, 65, 65, 65, 65, 65, 65, 65, 65, 65, 65, 65, 65, 65, 65, 65, 65, 65, 322, 0, 0, 0, 0],
  [65, 65, 65, 65, 65, 65, 65, 65, 65, 65, 65, 65, 65, 65, 65, 65, 65, 65, 65, 65, 65, 65, 65, 65, 65, 65, 65, 65, 65, 65, 65, 65],
  [65, 65, 65, 65, 65, 65, 65, 65, 65, 65, 65, 65, 65, 65, 65, 65, 65, 65, 65, 65, 65, 65, 65, 65, 65, 65, 65, 65, 65, 65, 65, 65],
  [65, 65, 65, 65, 65, 65, 65, 65, 65, 65, 65, 65, 65, 65, 65, 65, 65, 65, 65, 65, 65, 65, 65, 65, 65, 65, 65, 65, 65, 65, 65, 65],
  [65, 65, 65, 65, 65, 65, 65, 65, 65, 65, 65, 65, 65, 65, 65, 65, 65, 65, 65, 65, 65, 65, 65, 65, 65, 65, 65, 65, 65, 65, 65, 65],
  [65, 65, 65, 65, 65, 65, 65, 65, 65, 65, 65, 65, 65, 65, 65, 65, 65, 65, 65, 65, 65, 65, 65, 65, 65, 65, 65, 65, 65, 65, 65, 65],
  [65, 65, 65, 65, 65, 65, 65, 65, 65, 65, 65, 65, 65, 65, 65, 65, 65, 65, 65, 65, 65, 65, 65, 65, 65, 65, 65, 65, 65, 65, 65, 65],
  [65, 65, 65, 65, 65, 65, 65, 65, 65, 65, 65, 65, 65, 65, 65, 65, 65, 65, 65, 65, 65, 65, 65, 65, 65, 65, 65, 65, 65, 65, 65, 65],
  [65, 65, 65, 65, 65, 65, 65, 65, 65, 65, 65, 65, 65, 65, 65, 65, 65, 65, 65, 65, 65, 65, 65, 65, 65, 65, 65, 65, 65, 65, 65, 65],
  [65, 65, 65, 65, 65, 65, 65, 65, 65, 65, 65, 65, 65, 65, 65, 65, 65, 65, 65, 65, 65, 65, 65, 65, 65, 65, 65, 65, 65, 65, 65, 65],
  [65, 65, 65, 65, 65, 65, 65, 65, 65, 65, 65, 65, 65, 65, 65, 65, 65, 65, 65, 65, 65, 65, 65, 65, 65, 65, 65, 65, 65, 65, 65, 65],
  [65, 65, 65, 65, 65, 65, 65, 65, 65, 65, 65, 65, 65, 65, 65, 65, 65, 65, 65, 65, 65, 65, 65, 65, 65, 65, 65, 65, 65, 65, 65, 65],
  [65, 65, 65, 65, 65, 65, 65, 65, 65, 65, 65, 65, 65, 65, 65, 65, 65, 65, 65, 65, 65, 65, 65, 65, 65, 65, 65, 65, 65, 65, 65, 65],
  [65, 65, 65, 65, 65, 65, 65, 65, 65, 65, 65, 65, 65, 65, 65, 65, 65, 65, 65, 65, 65, 65, 65, 65, 65, 65, 65, 65, 65, 65, 65, 65],
  [65, 65, 65, 65, 65, 65, 65, 65, 65, 65, 65, 65, 65, 65, 65, 65, 65, 65, 65, 65, 65, 65, 65, 65, 65, 65, 65, 65, 65, 65, 65, 65],
  [65, 65, 65, 65, 65, 65, 65, 65, 65, 65, 65, 65, 65, 65, 65, 65, 65, 65, 65, 65, 65, 65, 65, 65, 65, 65, 65, 65, 65, 65, 65, 65],
  [65, 65, 65, 65, 65, 65, 65, 65, 65, 65, 65, 65, 65, 65, 65, 65, 65, 65, 65, 65, 65, 65, 65, 65, 65, 65, 65, 65, 65, 65, 65, 65],
  [65, 65, 65, 65, 65, 65, 65, 65, 65, 65, 65, 65, 65, 65, 65, 65, 65, 65, 65, 65, 65, 65, 65, 65, 65, 65, 65, 65, 65, 65, 65, 65],
  [65, 65, 65, 65, 65, 65, 65, 65, 65, 65, 65, 65, 65, 65, 65, 65, 65, 65, 65, 65, 65, 65, 65, 65, 65, 65, 65, 65, 65, 65, 65, 65],
  [65, 65, 65, 65, 65, 65, 65, 65, 65, 65, 65, 65, 65, 65, 65, 65, 65, 65, 65, 65, 65, 65, 65, 65, 65, 65, 65, 65, 65, 65, 65, 65],
  [65, 65, 65, 65, 65, 65, 65, 65, 65, 65, 65, 65, 65, 65, 65, 65, 65, 65, 65, 65, 65, 65, 65, 65, 65, 65, 65, 65, 65, 65, 65, 65],
  [65, 65, 65, 65, 65, 65, 65, 65, 65, 65, 65, 65, 65, 65, 65, 65, 65, 65, 65, 65, 65, 65, 65, 65, 65, 65, 65, 65, 65, 65, 65, 65],
  [65, 65, 65, 65, 65, 65, 65, 65, 65, 65, 65, 65, 65, 65, 65, 65, 65, 65, 65, 65, 65, 65, 65, 65, 65, 65, 65, 65, 65, 65, 65, 65],
  [65, 65, 65, 65, 65, 65, 65, 65, 65, 65, 65, 65, 65, 65, 65, 65, 65, 65, 65, 65, 65, 65, 65, 65, 65, 65, 65, 65, 65, 65, 65, 65],
  [65, 65, 65, 65, 65, 65, 65, 65, 65, 65, 65, 65, 65, 65, 65, 65, 65, 65, 65, 65, 65, 65, 65, 65, 65, 65, 65, 65, 65, 65, 65, 65],
  [65, 65, 65, 65, 65, 65, 65, 65, 65, 65, 65, 65, 65, 65, 65, 65, 65, 65, 65, 65, 65, 65, 65, 65, 65, 65, 65, 65, 65, 65, 65, 65],
  [65, 65, 65, 65, 65, 65, 65, 65, 65, 65, 65, 65, 65, 65, 65, 65, 65, 65, 65, 65, 65, 65, 65, 65, 65, 65, 65, 65, 65, 65, 65, 65],
  [65, 65, 65, 65, 65, 65, 65, 65, 65, 65, 65, 65, 65, 65, 65, 65, 65, 65, 65, 65, 65, 65, 65, 65, 65, 65, 65, 65, 65, 65, 65, 65],
  [65, 65, 65, 65, 65, 65, 65, 65, 65, 65, 65, 65, 65, 65, 65, 65, 65, 65, 65, 65, 65, 65, 65, 65, 65, 65, 65, 65, 65, 65, 65, 65],
  [65, 65, 65, 65, 65, 65, 65, 65, 65, 65, 65, 65, 65, 65, 65, 65, 65, 65, 65, 65, 65, 65, 65, 65, 65, 65, 65, 65, 65, 65, 65, 65],
  [65, 65, 65, 65, 65, 65, 65, 65, 65, 65, 65, 65, 65, 65, 65, 65, 65, 65, 65, 65, 65, 65, 65, 65, 65, 65, 65, 65, 65, 65, 65, 65],
  [65, 65, 65, 65, 65, 65, 65, 65, 65, 65, 65, 65, 65, 65, 65, 65, 65, 65, 65, 65, 65, 65, 65, 65, 65, 65, 65, 65, 65, 65, 65, 65],
  [65, 65, 65, 65, 65, 65, 65, 65, 65, 65, 65, 65, 65, 65, 65, 65, 65, 65, 65, 65, 65, 65, 65, 65, 65, 65, 65, 65, 65, 65, 65, 65],
  [65, 65, 65, 65, 65, 65, 65, 65, 65, 65, 65, 65, 65, 65, 65, 65, 65, 65, 65, 65, 65, 65, 65, 65, 65, 65, 65, 65, 65, 65, 65, 65],
  [65, 65, 65, 65, 65, 65, 65, 65, 65, 65, 65, 65, 65, 65, 65, 65, 65, 65, 65, 65, 65, 65, 65, 65, 65, 65, 65, 65, 65, 65, 65, 65],
  [65, 65, 65, 65, 65, 65, 65, 65, 65, 65, 65, 65, 65, 65, 65, 65, 65, 65, 65, 65, 65, 65, 65, 65, 65, 65, 65, 65, 65, 65, 65, 65],
  [65, 65, 65, 65, 65, 65, 65, 65, 65, 65, 65, 65, 65, 65, 65, 65, 65, 65, 65, 65, 65, 65, 65, 65, 65, 65, 65, 65, 65, 65, 65, 65],
  [65, 65, 65, 65, 65, 65, 65, 65, 65, 65, 65, 65, 65, 65, 65, 65, 65, 65, 65, 65, 65, 65, 65, 65, 65, 65, 65, 65, 65, 65, 65, 65],
  [65, 65, 65, 65, 65, 65, 65, 65, 65, 65, 65, 65, 65, 65, 65, 65, 65, 65, 65, 65, 65, 65, 65, 65, 65, 65, 65, 65, 65, 65, 65, 65],
  [65, 65, 65, 65, 65, 65, 65, 65, 65, 65, 65, 65, 65, 65, 65, 65, 65, 65, 65, 65, 65, 65, 65, 65, 65, 65, 65, 65, 65, 65, 65, 65],
  [65, 65, 65, 65, 65, 65, 65, 65, 65, 65, 65, 65, 65, 65, 65, 65, 65, 65, 65, 65, 65, 65, 65, 65, 65, 65, 65, 65, 65, 65, 65, 65],
  [65, 65, 65, 65, 65, 65, 65, 65, 65, 65, 65, 65, 65, 65, 65, 65, 65, 65, 65, 65, 65, 65, 65, 65, 65, 65, 322, 0, 0, 0, 0, 0],
  [65, 65, 65, 65, 65, 65, 65, 65, 65, 65, 65, 65, 65, 65, 65, 65, 65, 65, 65, 65, 65, 65, 65, 65, 65, 65, 65, 65, 65, 65, 65, 65],
  [65, 65, 65, 65, 65, 65, 65, 65, 65, 65, 65, 65, 65, 65, 65, 65, 65, 65, 65, 65, 65, 65, 65, 65, 65, 65, 65, 65, 65, 65, 65, 65],
  [65, 65, 65, 65, 65, 65, 65, 65, 80, 233, 233, 233, 259, 0, 0, 0, 0, 0, 0, 0, 0, 0, 0, 0, 0, 0, 0, 0, 0, 0, 0, 0],
  [0, 0, 0, 0, 0, 0, 0, 0, 0, 0, 0, 0, 0, 0, 0, 0, 0, 0, 0, 0, 0, 0, 0, 0, 0, 0, 0, 0, 0, 0, 0, 0],
  [0, 0, 0, 0, 0, 0, 0, 0, 0, 0, 0, 0, 0, 0, 0, 0, 0, 0, 0, 0, 0, 0, 0, 0, 0, 0, 0, 0, 0, 0, 0, 0],
  [0, 0, 0, 0, 0, 0, 0, 0, 0, 0, 0, 0, 0, 0, 0, 0, 0, 0, 0, 0, 0, 0, 0, 0, 0, 0, 0, 0, 0, 0, 0, 0],
  [65, 65, 65, 65, 65, 65, 65, 65, 65, 65, 65, 65, 65, 65, 65, 65, 65, 65, 65, 65, 65, 65, 65, 65, 65, 65, 65, 65, 65, 65, 65, 65],
  [65, 65, 65, 65, 65, 65, 65, 65, 65, 65, 65, 65, 65, 65, 65, 65, 65, 65, 65, 65, 65, 65, 65, 65, 65, 65, 65, 65, 65, 65, 65, 65],
  [65, 65, 65, 65, 65, 65, 65, 65, 65, 65, 65, 65, 65, 65, 65, 65, 65, 65, 65, 65, 65, 65, 65, 65, 65, 65, 65, 65, 65, 65, 65, 65],
  [65, 65, 65, 65, 65, 65, 65, 65, 65, 65, 65, 65, 65, 65, 65, 65, 65, 65, 65, 65, 65, 65, 65, 65, 65, 65, 65, 65, 65, 65, 65, 65],
  [65, 65, 65, 65, 65, 65, 65, 65, 65, 65, 65, 65, 65, 65, 65, 65, 65, 65, 65, 65, 65, 65, 65, 65, 65, 65, 65, 65, 65, 65, 65, 65],
  [65, 65, 65, 65, 65, 65, 65, 65, 65, 65, 65, 65, 65, 65, 65, 65, 65, 65, 65, 65, 65, 65, 65, 65, 65, 65, 65, 65, 65, 65, 65, 65],
  [65, 65, 65, 65, 65, 65, 65, 65, 65, 65, 65, 65, 65, 65, 65, 65, 65, 65, 65, 65, 65, 65, 65, 65, 65, 65, 65, 65, 65, 65, 65, 65],
  [65, 65, 65, 65, 65, 65, 65, 65, 65, 65, 65, 65, 65, 65, 65, 65, 65, 65, 65, 65, 65, 65, 65, 65, 65, 65, 65, 65, 65, 65, 65, 65],
  [65, 65, 65, 65, 65, 65, 65, 65, 65, 65, 65, 65, 65, 65, 65, 65, 65, 65, 65, 65, 65, 65, 65, 65, 65, 65, 65, 65, 65, 65, 65, 65],
  [65, 65, 65, 65, 65, 65, 65, 65, 65, 65, 65, 65, 65, 65, 65, 65, 65, 65, 65, 65, 65, 65, 65, 65, 65, 65, 65, 65, 65, 65, 65, 65],
  [65, 65, 65, 65, 65, 65, 65, 65, 65, 65, 65, 65, 65, 65, 65, 65, 65, 65, 65, 65, 65, 65, 65, 65, 65, 65, 65, 65, 65, 65, 65, 65],
  [65, 65, 65, 65, 65, 65, 65, 65, 65, 65, 65, 65, 65, 65, 65, 65, 65, 65, 65, 65, 65, 65, 65, 65, 65, 65, 65, 65, 65, 65, 65, 65],
  [65, 65, 65, 65, 65, 65, 65, 65, 65, 65, 65, 65, 65, 65, 65, 65, 65, 65, 65, 65, 65, 65, 65, 65, 65, 65, 65, 65, 65, 65, 65, 65],
  [65, 65, 65, 65, 65, 65, 65, 65, 65, 65, 65, 65, 65, 65, 65, 65, 65, 65, 65, 65, 65, 65, 65, 65, 65, 65, 65, 65, 65, 65, 65, 65],
  [65, 65, 65, 65, 65, 65, 65, 65, 65, 65, 65, 65, 65, 65, 65, 65, 65, 65, 65, 65, 65, 65, 65, 65, 65, 65, 65, 65, 65, 65, 65, 65],
  [65, 65, 65, 65, 65, 65, 65, 65, 65, 65, 65, 65, 65, 65, 65, 65, 65, 65, 65, 65, 65, 65, 65, 65, 65, 65, 65, 65, 65, 65, 65, 65],
  [65, 65, 65, 65, 65, 65, 65, 65, 65, 65, 65, 65, 65, 65, 65, 65, 65, 65, 65, 65, 65, 65, 65, 65, 65, 65, 65, 65, 65, 65, 65, 65],
  [65, 65, 65, 65, 65, 65, 65, 65, 65, 65, 65, 65, 65, 65, 65, 65, 65, 65, 65, 65, 65, 65, 65, 65, 65, 65, 65, 65, 65, 65, 65, 65],
  [65, 65, 65, 65, 65, 65, 65, 65, 65, 65, 65, 65, 65, 65, 65, 65, 65, 65, 65, 65, 65, 65, 65, 65, 65, 65, 65, 65, 65, 65, 65, 65],
  [65, 65, 65, 65, 65, 65, 65, 65, 65, 65, 65, 65, 65, 65, 65, 65, 65, 65, 65, 65, 65, 65, 65, 65, 65, 65, 65, 65, 65, 65, 65, 65],
  [65, 65, 65, 65, 65, 65, 65, 65, 65, 65, 65, 65, 65, 65, 65, 65, 65, 65, 65, 65, 65, 65, 65, 65, 65, 65, 65, 65, 65, 65, 65, 65],
  [65, 65, 65, 65, 65, 65, 65, 65, 65, 65, 65, 65, 65, 65, 65, 65, 65, 65, 65, 65, 65, 65, 65, 65, 65, 65, 323, 0, 0, 0, 0, 0],
  [324, 324, 324, 324, 324, 324, 324, 324, 324, 324, 324, 324, 324, 324, 324, 324, 324, 324, 324, 324, 324, 324, 324, 324, 324, 324, 324, 324, 324, 324, 324, 324],
  [324, 324, 324, 324, 324, 324, 324, 324, 324, 324, 324, 324, 324, 324, 324, 324, 324, 324, 324, 324, 324, 324, 324, 324, 0, 0, 0, 0, 0, 0, 0, 0],
  [324, 324, 324, 324, 324, 324, 324, 324, 324, 324, 324, 324, 324, 324, 324, 324, 324, 324, 324, 324, 324, 324, 324, 324, 324, 324, 324, 324, 324, 324, 324, 324],
  [324, 324, 324, 324, 324, 324, 324, 324, 324, 324, 324, 324, 324, 324, 324, 324, 324, 324, 324, 324, 324, 324, 324, 324, 324, 324, 324, 324, 324, 324, 324, 324],
  [0, 0, 0, 0, 0, 0, 0, 0, 0, 0, 0, 0, 0, 0, 0, 0, 0, 0, 0, 0, 0, 0, 0, 0, 0, 0, 0, 0, 0, 0, 0, 0],
  [0, 0, 0, 0, 0, 0, 0, 0, 0, 0, 0, 0, 0, 0, 0, 0, 0, 0, 0, 0, 0, 0, 0, 0, 0, 0, 0, 0, 0, 0, 0, 0],
  [0, 0, 0, 0, 0, 0, 0, 0, 0, 0, 0, 0, 0, 0, 0, 0, 0, 0, 0, 0, 0, 0, 0, 0, 0, 0, 0, 0, 0, 0, 0, 0],
  [0, 0, 0, 0, 0, 0, 0, 0, 0, 0, 0, 0, 0, 0, 0, 0, 0, 0, 0, 0, 0, 0, 0, 0, 0, 0, 0, 0, 0, 0, 0, 0],
  [0, 0, 0, 0, 0, 0, 0, 0, 0, 0, 0, 0, 0, 0, 0, 0, 0, 0, 0, 0, 0, 0, 0, 0, 0, 0, 0, 0, 0, 0, 0, 0],
  [0, 0, 0, 0, 0, 0, 0, 0, 0, 0, 0, 0, 0, 0, 0, 0, 0, 0, 0, 0, 0, 0, 0, 0, 0, 0, 0, 0, 0, 0, 0, 0],
  [0, 0, 0, 0, 0, 0, 0, 0, 0, 0, 0, 0, 0, 0, 0, 0, 0, 0, 0, 0, 0, 0, 0, 0, 0, 0, 0, 0, 0, 0, 0, 0],
  [0, 0, 0, 0, 0, 0, 0, 0, 0, 0, 0, 0, 0, 0, 0, 0, 0, 0, 0, 0, 0, 0, 0, 0, 0, 0, 0, 0, 0, 0, 0, 0],
  [0, 0, 0, 0, 0, 0, 0, 0, 0, 0, 0, 0, 0, 0, 0, 0, 0, 0, 0, 0, 0, 0, 0, 0, 0, 0, 0, 0, 0, 0, 0, 0],
  [0, 0, 0, 0, 0, 0, 0, 0, 0, 0, 0, 0, 0, 0, 0, 0, 0, 0, 0, 0, 0, 0, 0, 0, 0, 0, 0, 0, 0, 0, 0, 0],
  [0, 0, 0, 0, 0, 0, 0, 0, 0, 0, 0, 0, 0, 0, 0, 0, 0, 0, 0, 0, 0, 0, 0, 0, 0, 0, 0, 0, 0, 0, 0, 0],
  [0, 0, 0, 0, 0, 0, 0, 0, 0, 0, 0, 0, 0, 0, 0, 0, 0, 0, 0, 0, 0, 0, 0, 0, 0, 0, 0, 0, 0, 0, 0, 0],
  [0, 0, 0, 0, 0, 0, 0, 0, 0, 0, 0, 0, 0, 0, 0, 0, 65, 65, 65, 65, 65, 65, 65, 65, 65, 65, 65, 65, 65, 65, 65, 65],
  [65, 65, 325, 65, 65, 65, 66, 0, 0, 0, 0, 0, 0, 0, 0, 0, 326, 327, 328, 329, 330, 65, 65, 65, 65, 65, 65, 331, 0, 332, 65, 65],
  [65, 65, 65, 65, 65, 65, 65, 65, 65, 65, 65, 65, 65, 65, 65, 65, 65, 65, 65, 333, 0, 65, 65, 65, 65, 334, 65, 65, 195, 0, 0, 335],
  [158, 0, 336, 337, 338, 339, 340, 341, 65, 65, 65, 65, 65, 65, 65, 342, 343, 3, 4, 5, 6, 344, 345, 346, 65, 347, 65, 173, 348, 349, 350, 351]]

/-- `arr_CharInfo`, x_tables.h 12-366, in rows -/
def info : List (List Nat) := [
  [0, 0, 0, 0, 0, 0, 0, 0, 0, 0, 0, 0, 0, 0, 0, 0],
  [1, 1, 1, 1, 1, 1, 1, 1, 1, 1, 1, 1, 1, 1, 1, 1],
  [28, 20, 20, 20, 22, 20, 20, 20, 16405, 16401, 20, 24, 20, 16, 20, 20],
  [8204, 8204, 8204, 8204, 8204, 8204, 8204, 8204, 8204, 8204, 20, 20, 16408, 24, 16408, 20],
  [20, 4292870152, 4292870152, 4292870152, 4292870152, 4292870152, 4292870152, 4292870152, 4292870152, 4292870152, 4292870152, 4292870152, 4292870152, 4292870152, 4292870152, 4292870152],
  [4292870152, 4292870152, 4292870152, 4292870152, 4292870152, 4292870152, 4292870152, 4292870152, 4292870152, 4292870152, 4292870152, 16405, 20, 16401, 23, 15],
  [23, 2097156, 2097156, 2097156, 2097156, 2097156, 2097156, 2097156, 2097156, 2097156, 2097156, 2097156, 2097156, 2097156, 2097156, 2097156],
  [2097156, 2097156, 2097156, 2097156, 2097156, 2097156, 2097156, 2097156, 2097156, 2097156, 2097156, 16405, 24, 16401, 24, 1],
  [28, 20, 22, 22, 22, 22, 25, 25, 23, 25, 4, 16403, 24, 16, 25, 23],
  [25, 24, 8206, 8206, 23, 4246274052, 25, 20, 23, 8206, 4, 16402, 8206, 8206, 8206, 20],
  [4292870152, 4292870152, 4292870152, 4292870152, 4292870152, 4292870152, 4292870152, 4292870152, 4292870152, 4292870152, 4292870152, 4292870152, 4292870152, 4292870152, 4292870152, 4292870152],
  [4292870152, 4292870152, 4292870152, 4292870152, 4292870152, 4292870152, 4292870152, 24, 4292870152, 4292870152, 4292870152, 4292870152, 4292870152, 4292870152, 4292870152, 4],
  [2097156, 2097156, 2097156, 2097156, 2097156, 2097156, 2097156, 2097156, 2097156, 2097156, 2097156, 2097156, 2097156, 2097156, 2097156, 2097156],
  [2097156, 2097156, 2097156, 2097156, 2097156, 2097156, 2097156, 24, 2097156, 2097156, 2097156, 2097156, 2097156, 2097156, 2097156, 4287037444],
  [4294901768, 65540, 4294901768, 65540, 4294901768, 65540, 4294901768, 65540, 4294901768, 65540, 4294901768, 65540, 4294901768, 65540, 4294901768, 65540],
  [13041672, 15204356, 4294901768, 65540, 4294901768, 65540, 4294901768, 65540, 4, 4294901768, 65540, 4294901768, 65540, 4294901768, 65540, 4294901768],
  [65540, 4294901768, 65540, 4294901768, 65540, 4294901768, 65540, 4294901768, 65540, 4, 4294901768, 65540, 4294901768, 65540, 4294901768, 65540],
  [4294901768, 65540, 4294901768, 65540, 4294901768, 65540, 4294901768, 65540, 7929864, 4294901768, 65540, 4294901768, 65540, 4294901768, 65540, 19660804],
  [4, 4281204744, 4294901768, 65540, 4294901768, 65540, 4281466888, 4294901768, 65540, 4281532424, 4281532424, 4294901768, 65540, 4, 4289789960, 4281729032],
  [4281663496, 4294901768, 65540, 4281532424, 4281401352, 4288610308, 4281139208, 4281270280, 4294901768, 65540, 4, 4, 4281139208, 4281008136, 4286447620, 4280942600],
  [4294901768, 65540, 4294901768, 65540, 4294901768, 65540, 4280680456, 4294901768, 65540, 4280680456, 4, 4, 4294901768, 65540, 4280680456, 4294901768],
  [65540, 4280745992, 4280745992, 4294901768, 65540, 4294901768, 65540, 4280614920, 4294901768, 65540, 4, 6, 4294901768, 65540, 4, 4291297284],
  [6, 6, 6, 6, 4294869000, 4294901767, 163844, 4294869000, 4294901767, 163844, 4294869000, 4294901767, 163844, 4294901768, 65540, 4294901768],
  [65540, 4294901768, 65540, 4294901768, 65540, 4294901768, 65540, 4294901768, 65540, 4294901768, 65540, 4294901768, 65540, 5177348, 4294901768, 65540],
  [4, 4294869000, 4294901767, 163844, 4294901768, 65540, 6357000, 3670024, 4294901768, 65540, 4294901768, 65540, 4294901768, 65540, 4294901768, 65540],
  [8519688, 0, 4294901768, 65540, 4294901768, 65540, 4294901768, 65540, 4294901768, 65540, 4294901768, 65540, 4294901768, 65540, 4294901768, 65540],
  [4294901768, 65540, 4294901768, 65540, 0, 0, 0, 0, 0, 0, 0, 0, 0, 0, 0, 0],
  [4, 4, 4, 13762564, 13500420, 4, 13434884, 13434884, 4, 13238276, 4, 13303812, 4, 4, 4, 4],
  [13434884, 4, 4, 13565956, 4, 4, 4, 4, 13697028, 13828100, 4, 4, 4, 4, 4, 13828100],
  [4, 4, 13959172, 4, 4, 14024708, 4, 4, 4, 4, 4, 4, 4, 4, 4, 4],
  [14286852, 4, 4, 14286852, 4, 4, 4, 4, 14286852, 4, 14221316, 14221316, 4, 4, 4, 4],
  [4, 4, 14352388, 4, 4, 4, 4, 4, 4, 4, 4, 4, 4, 4, 4, 4],
  [4, 4, 4, 4, 4, 4, 4, 4, 4, 4, 4, 4, 4, 4, 0, 0],
  [5, 5, 5, 5, 5, 5, 5, 5, 5, 23, 23, 5, 5, 5, 5, 5],
  [5, 5, 23, 23, 23, 23, 23, 23, 23, 23, 23, 23, 23, 23, 23, 23],
  [5, 5, 5, 5, 5, 23, 23, 23, 23, 23, 23, 23, 23, 23, 5, 0],
  [7371, 7371, 7371, 7371, 7371, 7371, 7371, 7371, 7371, 7371, 7371, 7371, 7371, 7371, 7371, 7371],
  [7371, 7371, 7371, 7371, 7371, 7435, 7051, 7051, 7051, 7051, 7435, 6923, 7051, 7051, 7051, 7051],
  [7051, 6475, 6475, 7051, 7051, 7051, 7051, 6475, 6475, 7051, 7051, 7051, 7051, 7051, 7051, 7051],
  [7051, 7051, 7051, 7051, 43, 43, 43, 43, 43, 7051, 7051, 7051, 7051, 7371, 7371, 7371],
  [7371, 7371, 7371, 7371, 7371, 4289469963, 7371, 7051, 7051, 7051, 7371, 7371, 7371, 7051, 7051, 11],
  [7499, 7499, 7467, 7371, 7371, 7371, 7371, 7371, 7371, 7371, 7371, 7371, 7371, 7371, 7371, 7371],
  [0, 0, 0, 0, 23, 23, 0, 0, 0, 0, 5, 0, 0, 0, 20, 0],
  [0, 0, 0, 0, 23, 23, 4292476936, 20, 4292542472, 4292542472, 4292542472, 0, 4290773000, 0, 4290838536, 4290838536],
  [4, 4292870152, 4292870152, 4292870152, 4292870152, 4292870152, 4292870152, 4292870152, 4292870152, 4292870152, 4292870152, 4292870152, 4292870152, 4292870152, 4292870152, 4292870152],
  [4292870152, 4292870152, 0, 4292870152, 4292870152, 4292870152, 4292870152, 4292870152, 4292870152, 4292870152, 4292870152, 4292870152, 2490372, 2424836, 2424836, 2424836],
  [4, 2097156, 2097156, 2097156, 2097156, 2097156, 2097156, 2097156, 2097156, 2097156, 2097156, 2097156, 2097156, 2097156, 2097156, 2097156],
  [2097156, 2097156, 2031620, 2097156, 2097156, 2097156, 2097156, 2097156, 2097156, 2097156, 2097156, 2097156, 4194308, 4128772, 4128772, 0],
  [4063236, 3735556, 8, 8, 8, 3080196, 3538948, 4, 4294901768, 65540, 4294901768, 65540, 4294901768, 65540, 4294901768, 65540],
  [5636100, 5242884, 5177348, 4, 3932168, 6291460, 24, 0, 0, 0, 0, 0, 0, 0, 0, 0],
  [4289724424, 4289724424, 4289724424, 4289724424, 4289724424, 4289724424, 4289724424, 4289724424, 4289724424, 4289724424, 4289724424, 4289724424, 4289724424, 4289724424, 4289724424, 4289724424],
  [5242884, 5242884, 5242884, 5242884, 5242884, 5242884, 5242884, 5242884, 5242884, 5242884, 5242884, 5242884, 5242884, 5242884, 5242884, 5242884],
  [4294901768, 65540, 25, 7371, 7371, 7371, 7371, 0, 10, 10, 4294901768, 65540, 4294901768, 65540, 4294901768, 65540],
  [8, 4294901768, 65540, 4294901768, 65540, 4294901768, 65540, 4294901768, 65540, 4294901768, 65540, 4294901768, 65540, 4294901768, 65540, 0],
  [4294901768, 65540, 4294901768, 65540, 4294901768, 65540, 0, 0, 4294901768, 65540, 0, 0, 0, 0, 0, 0],
  [0, 4291821576, 4291821576, 4291821576, 4291821576, 4291821576, 4291821576, 4291821576, 4291821576, 4291821576, 4291821576, 4291821576, 4291821576, 4291821576, 4291821576, 4291821576],
  [4291821576, 4291821576, 4291821576, 4291821576, 4291821576, 4291821576, 4291821576, 4291821576, 4291821576, 4291821576, 4291821576, 4291821576, 4291821576, 4291821576, 4291821576, 4291821576],
  [4291821576, 4291821576, 4291821576, 4291821576, 4291821576, 4291821576, 4291821576, 0, 0, 5, 20, 20, 20, 20, 20, 20],
  [0, 3145732, 3145732, 3145732, 3145732, 3145732, 3145732, 3145732, 3145732, 3145732, 3145732, 3145732, 3145732, 3145732, 3145732, 3145732],
  [3145732, 3145732, 3145732, 3145732, 3145732, 3145732, 3145732, 3145732, 3145732, 3145732, 3145732, 3145732, 3145732, 3145732, 3145732, 3145732],
  [3145732, 3145732, 3145732, 3145732, 3145732, 3145732, 3145732, 4, 0, 20, 16, 0, 0, 0, 0, 0],
  [0, 7051, 7371, 7371, 7371, 7371, 7051, 7371, 7371, 7371, 7115, 7051, 7371, 7371, 7371, 7371],
  [7371, 7371, 0, 7051, 7051, 7051, 7051, 7051, 7371, 7371, 7051, 7371, 7371, 7115, 7307, 7371],
  [331, 363, 395, 427, 459, 491, 523, 555, 587, 619, 0, 651, 683, 715, 20, 747],
  [20, 779, 811, 20, 7371, 0, 0, 0, 0, 0, 0, 0, 0, 0, 0, 0],
  [6, 6, 6, 6, 6, 6, 6, 6, 6, 6, 6, 6, 6, 6, 6, 6],
  [6, 6, 6, 6, 6, 6, 6, 6, 6, 6, 6, 0, 0, 0, 0, 0],
  [6, 6, 6, 20, 20, 0, 0, 0, 0, 0, 0, 0, 0, 0, 0, 0],
  [0, 0, 0, 0, 0, 0, 0, 0, 0, 0, 0, 0, 20, 0, 0, 0],
  [0, 0, 0, 0, 0, 0, 0, 0, 0, 0, 0, 20, 0, 0, 0, 20],
  [0, 6, 6, 6, 6, 6, 6, 6, 6, 6, 6, 6, 6, 6, 6, 6],
  [5, 6, 6, 6, 6, 6, 6, 6, 6, 6, 6, 875, 907, 939, 971, 1003],
  [1035, 1067, 1099, 7371, 7371, 7051, 0, 0, 0, 0, 0, 0, 0, 0, 0, 0],
  [8204, 8204, 8204, 8204, 8204, 8204, 8204, 8204, 8204, 8204, 20, 20, 20, 20, 6, 6],
  [1131, 6, 6, 6, 6, 6, 6, 6, 6, 6, 6, 6, 6, 6, 6, 6],
  [6, 6, 6, 6, 20, 6, 7371, 7371, 7371, 7371, 7371, 7371, 7371, 2, 10, 7371],
  [7371, 7371, 7371, 7051, 7371, 5, 5, 7371, 7371, 25, 7051, 7371, 7371, 7051, 0, 0],
  [8204, 8204, 8204, 8204, 8204, 8204, 8204, 8204, 8204, 8204, 6, 6, 6, 25, 25, 0],
  [20, 20, 20, 20, 20, 20, 20, 20, 20, 20, 20, 20, 20, 20, 0, 2],
  [6, 1163, 6, 6, 6, 6, 6, 6, 6, 6, 6, 6, 6, 6, 6, 6],
  [6, 6, 6, 6, 6, 6, 6, 6, 6, 6, 6, 6, 6, 0, 0, 0],
  [7371, 7051, 7371, 7371, 7051, 7371, 7371, 7051, 7051, 7051, 7371, 7051, 7051, 7371, 7051, 7371],
  [7371, 7371, 7051, 7371, 7051, 7371, 7051, 7371, 7051, 7371, 7371, 0, 0, 0, 0, 0],
  [6, 6, 6, 6, 6, 6, 11, 11, 11, 11, 11, 11, 11, 11, 11, 11],
  [11, 6, 0, 0, 0, 0, 0, 0, 0, 0, 0, 0, 0, 0, 0, 0],
  [0, 11, 11, 9, 0, 6, 6, 6, 6, 6, 6, 6, 6, 6, 6, 6],
  [6, 6, 6, 6, 6, 6, 6, 6, 6, 6, 0, 0, 235, 6, 9, 9],
  [9, 11, 11, 11, 11, 11, 11, 11, 11, 9, 9, 9, 9, 299, 0, 0],
  [6, 7371, 7051, 7371, 7371, 0, 0, 0, 6, 6, 6, 6, 6, 6, 6, 6],
  [6, 6, 11, 11, 20, 20, 8204, 8204, 8204, 8204, 8204, 8204, 8204, 8204, 8204, 8204],
  [20, 0, 0, 0, 0, 0, 0, 0, 0, 0, 0, 0, 0, 0, 0, 0],
  [0, 11, 9, 9, 0, 6, 6, 6, 6, 6, 6, 6, 6, 0, 0, 6],
  [6, 0, 0, 6, 6, 6, 6, 6, 6, 6, 6, 6, 6, 6, 6, 6],
  [6, 6, 6, 6, 6, 6, 6, 6, 6, 0, 6, 6, 6, 6, 6, 6],
  [6, 0, 6, 0, 0, 0, 6, 6, 6, 6, 0, 0, 235, 0, 9, 9],
  [9, 11, 11, 11, 11, 0, 0, 9, 9, 0, 0, 9, 9, 299, 0, 0],
  [0, 0, 0, 0, 0, 0, 0, 9, 0, 0, 0, 0, 6, 6, 0, 6],
  [6, 6, 11, 11, 0, 0, 8204, 8204, 8204, 8204, 8204, 8204, 8204, 8204, 8204, 8204],
  [6, 6, 22, 22, 8206, 8206, 8206, 8206, 14, 8206, 25, 0, 0, 0, 0, 0],
  [0, 0, 11, 0, 0, 6, 6, 6, 6, 6, 6, 0, 0, 0, 0, 6],
  [6, 0, 6, 6, 0, 6, 6, 0, 6, 6, 0, 0, 235, 0, 9, 9],
  [9, 11, 11, 0, 0, 0, 0, 11, 11, 0, 0, 11, 11, 299, 0, 0],
  [0, 0, 0, 0, 0, 0, 0, 0, 0, 6, 6, 6, 6, 0, 6, 0],
  [0, 0, 0, 0, 0, 0, 8204, 8204, 8204, 8204, 8204, 8204, 8204, 8204, 8204, 8204],
  [11, 11, 6, 6, 6, 0, 0, 0, 0, 0, 0, 0, 0, 0, 0, 0],
  [0, 11, 11, 9, 0, 6, 6, 6, 6, 6, 6, 6, 0, 6, 0, 6],
  [6, 6, 0, 6, 6, 6, 6, 6, 6, 6, 6, 6, 6, 6, 6, 6],
  [6, 0, 6, 6, 0, 6, 6, 6, 6, 6, 0, 0, 235, 6, 9, 9],
  [9, 11, 11, 11, 11, 11, 0, 11, 11, 9, 0, 9, 9, 299, 0, 0],
  [6, 0, 0, 0, 0, 0, 0, 0, 0, 0, 0, 0, 0, 0, 0, 0],
  [6, 0, 0, 0, 0, 0, 8204, 8204, 8204, 8204, 8204, 8204, 8204, 8204, 8204, 8204],
  [6, 0, 6, 6, 0, 0, 6, 6, 6, 6, 0, 0, 235, 6, 9, 11],
  [9, 11, 11, 11, 0, 0, 0, 9, 9, 0, 0, 9, 9, 299, 0, 0],
  [0, 0, 0, 0, 0, 0, 11, 9, 0, 0, 0, 0, 6, 6, 0, 6],
  [6, 6, 0, 0, 0, 0, 8204, 8204, 8204, 8204, 8204, 8204, 8204, 8204, 8204, 8204],
  [25, 0, 0, 0, 0, 0, 0, 0, 0, 0, 0, 0, 0, 0, 0, 0],
  [0, 0, 11, 6, 0, 6, 6, 6, 6, 6, 6, 0, 0, 0, 6, 6],
  [6, 0, 6, 6, 6, 6, 0, 0, 0, 6, 6, 0, 6, 0, 6, 6],
  [0, 0, 0, 6, 6, 0, 0, 0, 6, 6, 6, 0, 0, 0, 6, 6],
  [6, 6, 6, 6, 6, 6, 0, 6, 6, 6, 0, 0, 0, 0, 9, 9],
  [11, 9, 9, 0, 0, 0, 9, 9, 9, 0, 9, 9, 9, 299, 0, 0],
  [0, 0, 0, 0, 0, 0, 0, 9, 0, 0, 0, 0, 0, 0, 0, 0],
  [0, 0, 0, 0, 0, 0, 0, 8204, 8204, 8204, 8204, 8204, 8204, 8204, 8204, 8204],
  [8206, 8206, 8206, 0, 0, 0, 0, 0, 0, 0, 0, 0, 0, 0, 0, 0],
  [0, 9, 9, 9, 0, 6, 6, 6, 6, 6, 6, 6, 6, 0, 6, 6],
  [6, 0, 6, 6, 6, 6, 6, 6, 6, 6, 6, 6, 6, 6, 6, 6],
  [6, 6, 6, 6, 0, 6, 6, 6, 6, 6, 0, 0, 0, 0, 11, 11],
  [11, 9, 9, 9, 9, 0, 11, 11, 11, 0, 11, 11, 11, 299, 0, 0],
  [0, 0, 0, 0, 0, 2699, 2923, 0, 0, 0, 0, 0, 0, 0, 0, 0],
  [0, 0, 9, 9, 0, 6, 6, 6, 6, 6, 6, 6, 6, 0, 6, 6],
  [6, 6, 6, 6, 0, 6, 6, 6, 6, 6, 0, 0, 0, 0, 9, 11],
  [9, 9, 9, 9, 9, 0, 11, 9, 9, 0, 9, 9, 11, 299, 0, 0],
  [0, 0, 0, 0, 0, 9, 9, 0, 0, 0, 0, 0, 0, 0, 6, 0],
  [6, 6, 6, 6, 6, 6, 6, 6, 6, 6, 0, 0, 0, 0, 9, 9],
  [9, 11, 11, 11, 0, 0, 9, 9, 9, 0, 9, 9, 9, 299, 0, 0],
  [0, 0, 9, 9, 0, 6, 6, 6, 6, 6, 6, 6, 6, 6, 6, 6],
  [6, 6, 6, 6, 6, 6, 6, 0, 0, 0, 6, 6, 6, 6, 6, 6],
  [6, 6, 0, 6, 6, 6, 6, 6, 6, 6, 6, 6, 0, 6, 0, 0],
  [6, 6, 6, 6, 6, 6, 6, 0, 0, 0, 299, 0, 0, 0, 0, 9],
  [9, 9, 11, 11, 11, 0, 11, 0, 9, 9, 9, 9, 9, 9, 9, 9],
  [0, 0, 9, 9, 20, 0, 0, 0, 0, 0, 0, 0, 0, 0, 0, 0],
  [6, 11, 6, 6, 11, 11, 11, 11, 3307, 3307, 299, 0, 0, 0, 0, 22],
  [6, 6, 6, 6, 6, 6, 5, 11, 3435, 3435, 3435, 3435, 11, 11, 11, 20],
  [8204, 8204, 8204, 8204, 8204, 8204, 8204, 8204, 8204, 8204, 20, 20, 0, 0, 0, 0],
  [0, 6, 6, 0, 6, 0, 0, 6, 6, 0, 6, 0, 0, 6, 0, 0],
  [0, 0, 0, 0, 6, 6, 6, 6, 0, 6, 6, 6, 6, 6, 6, 6],
  [0, 6, 6, 6, 0, 6, 0, 6, 0, 0, 6, 6, 0, 6, 6, 6],
  [6, 11, 6, 6, 11, 11, 11, 11, 3787, 3787, 0, 11, 11, 6, 0, 0],
  [6, 6, 6, 6, 6, 0, 5, 0, 3915, 3915, 3915, 3915, 11, 11, 0, 0],
  [8204, 8204, 8204, 8204, 8204, 8204, 8204, 8204, 8204, 8204, 0, 0, 6, 6, 0, 0],
  [6, 25, 25, 25, 20, 20, 20, 20, 20, 20, 20, 20, 20, 20, 20, 20],
  [20, 20, 20, 25, 25, 25, 25, 25, 7051, 7051, 25, 25, 25, 25, 25, 25],
  [8204, 8204, 8204, 8204, 8204, 8204, 8204, 8204, 8204, 8204, 8206, 8206, 8206, 8206, 8206, 8206],
  [8206, 8206, 8206, 8206, 25, 7051, 25, 7051, 25, 6923, 21, 17, 21, 17, 9, 9],
  [6, 6, 6, 6, 6, 6, 6, 6, 0, 6, 6, 6, 6, 6, 6, 6],
  [0, 4139, 4171, 11, 4235, 11, 11, 11, 11, 11, 4171, 4171, 4171, 4171, 11, 9],
  [4171, 11, 7371, 7371, 299, 20, 7371, 7371, 6, 6, 6, 6, 0, 0, 0, 0],
  [11, 11, 11, 11, 11, 11, 11, 11, 0, 11, 11, 11, 11, 11, 11, 11],
  [11, 11, 11, 11, 11, 11, 11, 11, 11, 11, 11, 11, 11, 11, 11, 11],
  [11, 11, 11, 11, 11, 11, 11, 11, 11, 11, 11, 11, 11, 0, 25, 25],
  [25, 25, 25, 25, 25, 25, 7051, 25, 25, 25, 25, 25, 25, 0, 0, 25],
  [6, 6, 0, 6, 6, 6, 6, 6, 0, 6, 6, 0, 9, 11, 11, 11],
  [11, 9, 11, 0, 0, 0, 11, 235, 9, 299, 0, 0, 0, 0, 0, 0],
  [8204, 8204, 8204, 8204, 8204, 8204, 8204, 8204, 8204, 8204, 20, 20, 20, 20, 20, 20],
  [6, 6, 6, 6, 6, 6, 9, 9, 11, 11, 0, 0, 0, 0, 0, 0],
  [8, 8, 8, 8, 8, 8, 8, 8, 8, 8, 8, 8, 8, 8, 8, 8],
  [8, 8, 8, 8, 8, 8, 0, 0, 0, 0, 0, 0, 0, 0, 0, 0],
  [6, 6, 6, 6, 6, 6, 6, 6, 6, 0, 0, 20, 0, 0, 0, 0],
  [6, 6, 6, 6, 6, 6, 6, 6, 6, 6, 0, 0, 0, 0, 0, 6],
  [6, 6, 6, 0, 0, 0, 0, 0, 6, 6, 6, 6, 6, 6, 6, 6],
  [6, 6, 6, 6, 6, 6, 6, 6, 6, 6, 0, 0, 0, 0, 0, 0],
  [6, 6, 6, 6, 6, 6, 6, 0, 6, 6, 6, 6, 6, 6, 6, 6],
  [6, 6, 6, 6, 6, 6, 6, 0, 6, 0, 6, 6, 6, 6, 0, 0],
  [6, 6, 6, 6, 6, 6, 6, 6, 6, 6, 6, 6, 6, 6, 6, 0],
  [6, 0, 6, 6, 6, 6, 0, 0, 6, 6, 6, 6, 6, 6, 6, 0],
  [0, 20, 20, 20, 20, 20, 20, 20, 20, 8204, 8204, 8204, 8204, 8204, 8204, 8204],
  [8204, 8204, 8206, 8206, 8206, 8206, 8206, 8206, 8206, 8206, 8206, 8206, 8206, 0, 0, 0],
  [6, 6, 6, 6, 6, 0, 0, 0, 0, 0, 0, 0, 0, 0, 0, 0],
  [6, 6, 6, 6, 6, 6, 6, 6, 6, 6, 6, 6, 6, 20, 20, 6],
  [6, 6, 6, 6, 6, 6, 6, 0, 0, 0, 0, 0, 0, 0, 0, 0],
  [28, 6, 6, 6, 6, 6, 6, 6, 6, 6, 6, 6, 6, 6, 6, 6],
  [6, 6, 6, 6, 6, 6, 6, 6, 6, 6, 6, 21, 17, 0, 0, 0],
  [6, 6, 6, 6, 6, 6, 6, 6, 6, 6, 6, 20, 20, 20, 8205, 8205],
  [8205, 0, 0, 0, 0, 0, 0, 0, 0, 0, 0, 0, 0, 0, 0, 0],
  [6, 6, 6, 6, 6, 6, 6, 6, 6, 6, 6, 6, 6, 0, 6, 6],
  [6, 6, 11, 11, 299, 0, 0, 0, 0, 0, 0, 0, 0, 0, 0, 0],
  [6, 6, 11, 11, 299, 20, 20, 0, 0, 0, 0, 0, 0, 0, 0, 0],
  [6, 6, 11, 11, 0, 0, 0, 0, 0, 0, 0, 0, 0, 0, 0, 0],
  [6, 0, 11, 11, 0, 0, 0, 0, 0, 0, 0, 0, 0, 0, 0, 0],
  [6, 6, 6, 6, 9, 9, 9, 11, 11, 11, 11, 11, 11, 11, 9, 9],
  [9, 9, 9, 9, 9, 9, 11, 9, 9, 11, 11, 11, 11, 11, 11, 11],
  [11, 11, 299, 11, 20, 20, 20, 5, 20, 20, 20, 22, 6, 0, 0, 0],
  [8204, 8204, 8204, 8204, 8204, 8204, 8204, 8204, 8204, 8204, 0, 0, 0, 0, 0, 0],
  [20, 20, 20, 20, 20, 20, 16, 20, 20, 20, 20, 11, 11, 11, 2, 0],
  [6, 6, 6, 5, 6, 6, 6, 6, 6, 6, 6, 6, 6, 6, 6, 6],
  [6, 6, 6, 6, 6, 6, 6, 6, 0, 0, 0, 0, 0, 0, 0, 0],
  [6, 6, 6, 6, 6, 6, 6, 6, 6, 7307, 0, 0, 0, 0, 0, 0],
  [4294901768, 65540, 4294901768, 65540, 4294901768, 65540, 4, 4, 4, 4, 4, 3866628, 0, 0, 0, 0],
  [4294901768, 65540, 4294901768, 65540, 4294901768, 65540, 4294901768, 65540, 4294901768, 65540, 0, 0, 0, 0, 0, 0],
  [4294443012, 4294443012, 4294443012, 4294443012, 4294443012, 4294443012, 4294443012, 4294443012, 524296, 524296, 524296, 524296, 524296, 524296, 524296, 524296],
  [4294443012, 4294443012, 4294443012, 4294443012, 4294443012, 4294443012, 0, 0, 524296, 524296, 524296, 524296, 524296, 524296, 0, 0],
  [4, 4294443012, 4, 4294443012, 4, 4294443012, 4, 4294443012, 0, 524296, 0, 524296, 0, 524296, 0, 524296],
  [4290117636, 4290117636, 4289331204, 4289331204, 4289331204, 4289331204, 4288413700, 4288413700, 4286578692, 4286578692, 4287627268, 4287627268, 4286709764, 4286709764, 0, 0],
  [4294443012, 4294443012, 4294443012, 4294443012, 4294443012, 4294443012, 4294443012, 4294443012, 524295, 524295, 524295, 524295, 524295, 524295, 524295, 524295],
  [4294443012, 4294443012, 4, 4294377476, 4, 0, 4, 4, 524296, 524296, 4849672, 4849672, 589831, 23, 472186884, 23],
  [23, 23, 4, 4294377476, 4, 0, 4, 4, 5636104, 5636104, 5636104, 5636104, 589831, 23, 23, 23],
  [4294443012, 4294443012, 4, 4, 0, 0, 4, 4, 524296, 524296, 6553608, 6553608, 0, 23, 23, 23],
  [4294443012, 4294443012, 4, 4, 4, 4294508548, 4, 4, 524296, 524296, 7340040, 7340040, 458760, 23, 23, 23],
  [0, 0, 4, 4294377476, 4, 0, 4, 4, 8388616, 8388616, 8257544, 8257544, 589831, 23, 23, 0],
  [28, 28, 28, 28, 28, 28, 28, 28, 28, 28, 28, 28, 2, 2, 2, 2],
  [16, 16, 16, 16, 16, 16, 20, 20, 19, 18, 21, 19, 19, 18, 21, 19],
  [20, 20, 20, 20, 20, 20, 20, 20, 26, 27, 2, 2, 2, 2, 2, 28],
  [20, 20, 20, 20, 20, 20, 20, 20, 20, 16403, 16402, 20, 20, 20, 20, 15],
  [15, 20, 20, 20, 24, 16405, 16401, 20, 20, 20, 20, 20, 20, 20, 20, 20],
  [20, 20, 24, 0, 0, 0, 0, 20, 0, 0, 0, 0, 0, 0, 0, 28],
  [2, 2, 2, 2, 0, 0, 0, 0, 0, 0, 2, 2, 2, 2, 2, 2],
  [8206, 4, 0, 0, 8206, 8206, 8206, 8206, 8206, 8206, 24, 24, 24, 16405, 16401, 4],
  [8206, 8206, 8206, 8206, 8206, 8206, 8206, 8206, 8206, 8206, 24, 24, 24, 16405, 16401, 0],
  [22, 22, 22, 22, 22, 22, 22, 22, 22, 22, 22, 22, 22, 22, 22, 22],
  [22, 22, 0, 0, 0, 0, 0, 0, 0, 0, 0, 0, 0, 0, 0, 0],
  [7371, 7371, 43, 43, 7371, 7371, 7371, 7371, 43, 43, 43, 7371, 7371, 10, 10, 10],
  [10, 7371, 10, 10, 10, 43, 43, 7371, 7051, 7371, 43, 0, 0, 0, 0, 0],
  [25, 25, 8, 25, 25, 25, 25, 8, 25, 25, 4, 8, 8, 8, 4, 4],
  [8, 8, 8, 4, 25, 8, 25, 25, 25, 8, 8, 8, 8, 8, 25, 25],
  [25, 25, 25, 25, 8, 25, 492634120, 25, 8, 25, 549388296, 541458440, 8, 8, 25, 4],
  [8, 8, 25, 8, 4, 6, 6, 6, 6, 4, 25, 0, 0, 4, 8, 8],
  [16408, 24, 24, 24, 24, 8, 4, 4, 4, 4, 25, 24, 0, 0, 0, 0],
  [0, 0, 0, 8206, 8206, 8206, 8206, 8206, 8206, 8206, 8206, 8206, 8206, 8206, 8206, 8206],
  [4293926925, 4293926925, 4293926925, 4293926925, 4293926925, 4293926925, 4293926925, 4293926925, 4293926925, 4293926925, 4293926925, 4293926925, 4293926925, 4293926925, 4293926925, 4293926925],
  [1056781, 1056781, 1056781, 1056781, 1056781, 1056781, 1056781, 1056781, 1056781, 1056781, 1056781, 1056781, 1056781, 1056781, 1056781, 1056781],
  [8205, 8205, 8205, 13, 0, 0, 0, 0, 0, 0, 0, 0, 0, 0, 0, 0],
  [24, 24, 24, 24, 24, 25, 25, 25, 25, 25, 24, 24, 25, 25, 25, 25],
  [24, 25, 25, 24, 25, 25, 24, 25, 25, 25, 25, 25, 25, 25, 24, 25],
  [25, 25, 25, 25, 25, 25, 25, 25, 25, 25, 25, 25, 25, 25, 25, 25],
  [25, 25, 25, 25, 25, 25, 25, 25, 25, 25, 25, 25, 25, 25, 24, 24],
  [25, 25, 24, 25, 24, 25, 25, 25, 25, 25, 25, 25, 25, 25, 25, 25],
  [25, 25, 25, 25, 24, 24, 24, 24, 24, 24, 24, 24, 24, 24, 24, 24],
  [24, 16408, 16408, 16408, 16408, 24, 24, 24, 16408, 16408, 16408, 16408, 16408, 16408, 24, 24],
  [24, 16408, 24, 24, 24, 16408, 16408, 24, 24, 24, 16408, 16408, 16408, 16408, 24, 16408],
  [16408, 16408, 16408, 24, 16408, 24, 16408, 24, 24, 24, 24, 16408, 16408, 16408, 16408, 16408],
  [16408, 16408, 16408, 16408, 24, 24, 24, 24, 24, 16408, 24, 16408, 16408, 16408, 16408, 16408],
  [16408, 16408, 16408, 16408, 16408, 16408, 16408, 16408, 16408, 16408, 16408, 16408, 16408, 24, 24, 24],
  [24, 24, 16408, 16408, 16408, 16408, 24, 24, 24, 24, 24, 24, 24, 24, 24, 16408],
  [16408, 24, 16408, 24, 16408, 16408, 16408, 16408, 16408, 16408, 16408, 16408, 24, 24, 16408, 16408],
  [16408, 16408, 16408, 16408, 16408, 16408, 16408, 16408, 16408, 16408, 16408, 16408, 16408, 16408, 16408, 16408],
  [16408, 16408, 16408, 16408, 16408, 16408, 16408, 16408, 16408, 16408, 16408, 16408, 16408, 24, 24, 16408],
  [16408, 16408, 16408, 24, 24, 24, 24, 24, 16408, 24, 24, 24, 24, 24, 24, 24],
  [24, 24, 16408, 16408, 24, 24, 16408, 16408, 16408, 16408, 16408, 16408, 16408, 16408, 16408, 16408],
  [16408, 16408, 16408, 16408, 16408, 16408, 16408, 16408, 16408, 24, 24, 24, 24, 24, 16408, 16408],
  [24, 24, 24, 24, 24, 24, 24, 24, 24, 16408, 16408, 16408, 16408, 16408, 24, 24],
  [16408, 16408, 24, 24, 24, 24, 16408, 16408, 16408, 16408, 16408, 16408, 16408, 16408, 16408, 16408],
  [16408, 16408, 16408, 16408, 16408, 16408, 16408, 16408, 16408, 16408, 16408, 16408, 16408, 16408, 24, 24],
  [25, 25, 25, 25, 25, 25, 25, 25, 16408, 16408, 16408, 16408, 25, 25, 25, 25],
  [16408, 16408, 25, 25, 25, 25, 25, 25, 25, 16405, 16401, 25, 25, 25, 25, 25],
  [25, 25, 25, 25, 25, 25, 25, 25, 25, 25, 25, 25, 24, 25, 25, 25],
  [25, 25, 25, 25, 25, 25, 25, 25, 25, 25, 25, 24, 24, 24, 24, 24],
  [24, 24, 24, 24, 24, 24, 24, 24, 24, 24, 24, 24, 24, 24, 24, 24],
  [24, 24, 24, 24, 21, 17, 20, 25, 25, 25, 25, 25, 25, 25, 25, 25],
  [25, 25, 25, 25, 25, 25, 25, 25, 25, 25, 25, 25, 25, 25, 25, 0],
  [25, 25, 25, 25, 25, 25, 25, 0, 0, 0, 0, 0, 0, 0, 0, 0],
  [25, 25, 25, 25, 25, 25, 25, 25, 25, 25, 25, 0, 0, 0, 0, 0],
  [8206, 8206, 8206, 8206, 8206, 8206, 8206, 8206, 8206, 8206, 8206, 8206, 8206, 8206, 8206, 8206],
  [8206, 8206, 8206, 8206, 8206, 8206, 8206, 8206, 8206, 8206, 8206, 8206, 25, 25, 25, 25],
  [25, 25, 25, 25, 25, 25, 4293263385, 4293263385, 4293263385, 4293263385, 4293263385, 4293263385, 4293263385, 4293263385, 4293263385, 4293263385],
  [4293263385, 4293263385, 4293263385, 4293263385, 4293263385, 4293263385, 4293263385, 4293263385, 4293263385, 4293263385, 4293263385, 4293263385, 4293263385, 4293263385, 4293263385, 4293263385],
  [1703961, 1703961, 1703961, 1703961, 1703961, 1703961, 1703961, 1703961, 1703961, 1703961, 1703961, 1703961, 1703961, 1703961, 1703961, 1703961],
  [1703961, 1703961, 1703961, 1703961, 1703961, 1703961, 1703961, 1703961, 1703961, 1703961, 8206, 8206, 8206, 8206, 8206, 8206],
  [8206, 8206, 8206, 8206, 8206, 8206, 8206, 8206, 8206, 8206, 8206, 8206, 8206, 8206, 8206, 0],
  [25, 25, 25, 25, 25, 25, 25, 24, 25, 25, 25, 25, 25, 25, 25, 25],
  [25, 24, 25, 25, 25, 25, 25, 25, 25, 25, 25, 25, 25, 25, 25, 25],
  [25, 25, 25, 25, 25, 25, 25, 25, 24, 24, 24, 24, 24, 24, 24, 24],
  [25, 25, 25, 25, 0, 0, 25, 25, 0, 25, 25, 25, 25, 25, 25, 25],
  [25, 25, 25, 25, 25, 25, 25, 25, 25, 25, 25, 25, 25, 25, 25, 24],
  [25, 25, 25, 25, 25, 25, 25, 25, 25, 25, 25, 25, 25, 25, 0, 0],
  [25, 25, 25, 25, 25, 25, 25, 25, 25, 25, 0, 0, 0, 0, 0, 0],
  [0, 25, 25, 25, 25, 0, 25, 25, 25, 25, 0, 0, 25, 25, 25, 25],
  [25, 25, 25, 25, 25, 25, 25, 25, 0, 25, 25, 25, 25, 25, 25, 25],
  [25, 25, 25, 25, 25, 25, 25, 25, 25, 25, 25, 25, 0, 25, 0, 25],
  [25, 25, 25, 0, 0, 0, 25, 0, 25, 25, 25, 25, 25, 25, 25, 0],
  [0, 25, 25, 25, 25, 25, 25, 25, 16405, 16401, 16405, 16401, 16405, 16401, 16405, 16401],
  [16405, 16401, 16405, 16401, 16405, 16401, 8206, 8206, 8206, 8206, 8206, 8206, 8206, 8206, 8206, 8206],
  [8206, 8206, 8206, 8206, 25, 0, 0, 0, 25, 25, 25, 25, 25, 25, 25, 25],
  [0, 25, 25, 25, 25, 25, 25, 25, 25, 25, 25, 25, 25, 25, 25, 0],
  [24, 24, 24, 16408, 16408, 16408, 16408, 24, 24, 24, 24, 24, 16408, 16408, 16408, 24],
  [24, 24, 16408, 16408, 16408, 16408, 16405, 16401, 16405, 16401, 16405, 16401, 0, 0, 0, 0],
  [24, 24, 24, 16405, 16401, 16405, 16401, 16405, 16401, 16405, 16401, 16405, 16401, 16405, 16401, 16405],
  [16401, 16405, 16401, 16405, 16401, 16405, 16401, 16405, 16401, 24, 24, 16408, 16408, 16408, 16408, 16408],
  [24, 24, 24, 24, 24, 24, 24, 24, 16408, 24, 24, 24, 24, 24, 24, 24],
  [16408, 16408, 16408, 16408, 16408, 16408, 24, 24, 24, 16408, 24, 24, 24, 24, 16408, 16408],
  [16408, 16408, 16408, 24, 16408, 16408, 24, 24, 16405, 16401, 16405, 16401, 16408, 24, 24, 24],
  [24, 16408, 24, 16408, 16408, 16408, 24, 24, 16408, 16408, 24, 24, 24, 24, 24, 24],
  [24, 24, 24, 24, 16408, 16408, 16408, 16408, 16408, 16408, 24, 24, 16405, 16401, 24, 24],
  [24, 24, 24, 24, 24, 24, 24, 24, 24, 24, 16408, 16408, 16408, 16408, 16408, 16408],
  [16408, 16408, 16408, 16408, 16408, 16408, 16408, 16408, 16408, 16408, 16408, 16408, 16408, 24, 16408, 16408],
  [16408, 16408, 24, 24, 16408, 24, 16408, 24, 24, 16408, 24, 16408, 16408, 16408, 16408, 24],
  [24, 24, 24, 24, 16408, 16408, 24, 24, 24, 24, 24, 24, 16408, 16408, 16408, 24],
  [24, 24, 24, 24, 24, 24, 24, 16408, 16408, 24, 24, 24, 24, 24, 24, 24],
  [24, 24, 24, 24, 16408, 16408, 24, 24, 24, 24, 16408, 16408, 16408, 16408, 24, 16408],
  [16408, 24, 24, 16408, 16408, 24, 24, 24, 24, 16408, 16408, 16408, 16408, 16408, 16408, 16408],
  [16408, 16408, 16408, 16408, 24, 24, 16408, 16408, 16408, 16408, 16408, 16408, 16408, 16408, 24, 16408],
  [16408, 16408, 16408, 16408, 16408, 16408, 16408, 24, 24, 24, 24, 24, 16408, 24, 16408, 24],
  [24, 24, 16408, 16408, 16408, 16408, 16408, 24, 24, 24, 24, 24, 16408, 16408, 16408, 24],
  [24, 24, 24, 16408, 24, 24, 24, 16408, 16408, 16408, 16408, 16408, 24, 16408, 24, 24],
  [25, 25, 25, 25, 25, 25, 25, 25, 25, 25, 0, 25, 25, 25, 25, 25],
  [25, 25, 25, 25, 0, 0, 0, 0, 0, 0, 0, 0, 0, 0, 0, 0],
  [25, 25, 25, 25, 25, 25, 0, 0, 0, 0, 0, 0, 0, 0, 0, 0],
  [25, 25, 25, 25, 25, 25, 25, 25, 25, 25, 25, 25, 0, 0, 0, 0],
  [28, 20, 20, 20, 25, 5, 6, 8205, 16405, 16401, 16405, 16401, 16405, 16401, 16405, 16401],
  [16405, 16401, 25, 25, 16405, 16401, 16405, 16401, 16405, 16401, 16405, 16401, 16, 21, 17, 17],
  [25, 8205, 8205, 8205, 8205, 8205, 8205, 8205, 8205, 8205, 6987, 7307, 7435, 7115, 7179, 7179],
  [16, 5, 5, 5, 5, 5, 25, 25, 8205, 8205, 8205, 5, 6, 20, 25, 25],
  [6, 6, 6, 6, 6, 6, 6, 0, 0, 267, 267, 23, 23, 5, 5, 6],
  [16, 6, 6, 6, 6, 6, 6, 6, 6, 6, 6, 6, 6, 6, 6, 6],
  [6, 6, 6, 6, 6, 6, 6, 6, 6, 6, 6, 15, 5, 5, 5, 6],
  [0, 0, 0, 0, 0, 6, 6, 6, 6, 6, 6, 6, 6, 6, 6, 6],
  [25, 25, 8206, 8206, 8206, 8206, 25, 25, 25, 25, 25, 25, 25, 25, 25, 25],
  [25, 25, 25, 25, 25, 25, 25, 25, 25, 25, 25, 25, 25, 0, 0, 0],
  [8206, 8206, 8206, 8206, 8206, 8206, 8206, 8206, 8206, 8206, 25, 25, 25, 25, 25, 25],
  [0, 8206, 8206, 8206, 8206, 8206, 8206, 8206, 8206, 8206, 8206, 8206, 8206, 8206, 8206, 8206],
  [25, 25, 25, 25, 25, 25, 25, 25, 25, 25, 25, 25, 0, 0, 0, 25],
  [25, 8206, 8206, 8206, 8206, 8206, 8206, 8206, 8206, 8206, 8206, 8206, 8206, 8206, 8206, 8206],
  [25, 25, 25, 25, 25, 25, 25, 0, 0, 0, 0, 25, 25, 25, 25, 25],
  [6, 6, 6, 6, 6, 6, 0, 0, 0, 0, 0, 0, 0, 0, 0, 0],
  [6, 6, 6, 6, 0, 0, 0, 0, 0, 0, 0, 0, 0, 0, 0, 0],
  [3, 3, 3, 3, 3, 3, 3, 3, 3, 3, 3, 3, 3, 3, 3, 3],
  [6, 6, 6, 6, 6, 6, 6, 6, 6, 6, 6, 6, 6, 6, 0, 0],
  [4, 4, 4, 4, 4, 4, 4, 0, 0, 0, 0, 0, 0, 0, 0, 0],
  [0, 0, 0, 4, 4, 4, 4, 4, 0, 0, 0, 0, 0, 6, 843, 6],
  [6, 6, 6, 6, 6, 6, 6, 6, 6, 24, 6, 6, 6, 6, 6, 6],
  [6, 6, 6, 6, 6, 6, 6, 0, 6, 6, 6, 6, 6, 0, 6, 0],
  [6, 6, 0, 6, 6, 0, 6, 6, 6, 6, 6, 6, 6, 6, 6, 6],
  [6, 6, 0, 0, 0, 0, 0, 0, 0, 0, 0, 0, 0, 0, 0, 0],
  [0, 0, 0, 6, 6, 6, 6, 6, 6, 6, 6, 6, 6, 6, 6, 6],
  [6, 6, 6, 6, 6, 6, 6, 6, 6, 6, 6, 6, 6, 6, 21, 17],
  [0, 0, 6, 6, 6, 6, 6, 6, 6, 6, 6, 6, 6, 6, 6, 6],
  [6, 6, 6, 6, 6, 6, 6, 6, 6, 6, 6, 6, 22, 0, 0, 0],
  [7371, 7371, 7371, 7371, 0, 0, 0, 0, 0, 0, 0, 0, 0, 0, 0, 0],
  [20, 16, 16, 15, 15, 21, 17, 21, 17, 21, 17, 21, 17, 21, 17, 21],
  [17, 21, 17, 21, 17, 20, 20, 0, 0, 20, 20, 20, 20, 15, 15, 15],
  [20, 20, 20, 0, 20, 20, 20, 20, 16, 21, 17, 21, 17, 21, 17, 20],
  [20, 20, 24, 16, 24, 24, 24, 0, 20, 22, 20, 20, 0, 0, 0, 0],
  [6, 6, 6, 6, 6, 0, 6, 6, 6, 6, 6, 6, 6, 6, 6, 6],
  [6, 6, 6, 6, 6, 6, 6, 6, 6, 6, 6, 6, 6, 0, 0, 2],
  [0, 20, 20, 20, 22, 20, 20, 20, 16405, 16401, 20, 24, 20, 16, 20, 20],
  [2097156, 2097156, 2097156, 2097156, 2097156, 2097156, 2097156, 2097156, 2097156, 2097156, 2097156, 16405, 24, 16401, 24, 16405],
  [16401, 20, 16405, 16401, 20, 15, 6, 6, 6, 6, 6, 6, 6, 6, 6, 6],
  [5, 6, 6, 6, 6, 6, 6, 6, 6, 6, 6, 6, 6, 6, 6, 6],
  [6, 6, 6, 6, 6, 6, 6, 6, 6, 6, 6, 6, 6, 6, 5, 5],
  [0, 0, 6, 6, 6, 6, 6, 6, 0, 0, 6, 6, 6, 6, 6, 6],
  [0, 0, 6, 6, 6, 6, 6, 6, 0, 0, 6, 6, 6, 0, 0, 0],
  [22, 22, 24, 23, 25, 22, 22, 0, 25, 24, 24, 24, 24, 25, 25, 0],
  [0, 0, 0, 0, 0, 0, 0, 0, 0, 2, 2, 2, 25, 25, 0, 0]]

/-- `arr_idxCharCategoryIdx`, x_charcategory2.h 8-94, in rows -/
def idxCat : List (List Nat) := [
  [8, 0, 0, 0, 0, 0, 0, 0, 0, 0, 0, 0, 0, 0, 0, 0, 0, 0, 0, 0, 0, 0, 0, 0, 0, 0, 0, 0, 0, 0, 0, 0],
  [0, 0, 0, 0, 0, 0, 0, 0, 0, 0, 0, 0, 0, 0, 0, 0, 0, 0, 0, 0, 0, 0, 0, 0, 0, 0, 0, 0, 0, 0, 0, 0],
  [0, 0, 0, 0, 0, 0, 0, 0, 0, 0, 0, 0, 0, 0, 0, 0, 0, 0, 0, 0, 0, 0, 0, 0, 0, 0, 0, 0, 0, 0, 0, 0],
  [0, 0, 0, 0, 0, 0, 0, 0, 0, 0, 0, 0, 0, 0, 0, 0, 0, 0, 0, 0, 0, 0, 0, 0, 0, 0, 0, 0, 0, 0, 0, 0],
  [0, 0, 0, 0, 0, 0, 0, 0, 0, 0, 0, 0, 0, 0, 0, 0, 0, 0, 0, 0, 0, 0, 0, 0, 0, 0, 0, 0, 0, 0, 0, 0],
  [0, 0, 0, 0, 0, 0, 0, 0, 0, 0, 0, 0, 0, 0, 0, 0, 0, 0, 0, 0, 0, 0, 0, 0, 0, 0, 0, 0, 0, 0, 0, 0],
  [0, 0, 0, 0, 0, 0, 0, 0, 0, 0, 0, 0, 0, 0, 0, 0, 0, 0, 0, 0, 0, 0, 0, 0, 0, 0, 0, 0, 0, 0, 0, 0],
  [0, 0, 0, 0, 0, 0, 0, 0, 0, 0, 0, 0, 0, 0, 0, 0, 0, 0, 0, 0, 0, 0, 0, 0, 0, 0, 0, 0, 0, 0, 0, 0],
  [0, 0, 0, 0, 0, 0, 16, 24, 0, 0, 0, 0, 0, 0, 0, 0, 0, 0, 0, 0, 0, 0, 0, 0, 32, 0, 0, 0, 0, 0, 0, 0],
  [40, 0, 0, 0, 0, 0, 0, 0, 0, 0, 0, 0, 0, 0, 0, 0, 0, 0, 0, 0, 0, 0, 0, 0, 0, 0, 0, 0, 0, 0, 0, 0],
  [0, 0, 0, 0, 0, 0, 0, 0, 0, 0, 0, 0, 0, 0, 0, 0, 0, 0, 0, 0, 0, 0, 0, 0, 0, 0, 0, 0, 0, 0, 0, 0],
  [0, 0, 0, 0, 0, 0, 0, 0, 0, 0, 0, 0, 0, 0, 0, 0, 0, 0, 0, 0, 0, 0, 0, 0, 0, 0, 0, 0, 0, 0, 0, 0],
  [0, 0, 0, 0, 0, 0, 0, 0, 0, 0, 0, 0, 0, 0, 0, 0, 0, 0, 0, 0, 0, 0, 0, 0, 0, 0, 0, 0, 0, 0, 0, 0],
  [0, 0, 0, 0, 0, 0, 0, 0, 0, 0, 0, 0, 0, 0, 0, 0, 0, 0, 0, 0, 0, 0, 0, 0, 0, 0, 0, 0, 0, 0, 0, 0],
  [0, 0, 0, 0, 0, 0, 0, 0, 0, 0, 0, 0, 0, 0, 0, 0, 0, 0, 0, 0, 0, 0, 0, 0, 0, 0, 0, 0, 0, 0, 0, 0],
  [0, 0, 0, 0, 0, 0, 0, 0, 0, 0, 0, 0, 0, 0, 0, 0, 0, 0, 0, 0, 0, 0, 0, 0, 0, 0, 0, 0, 0, 0, 48, 56],
  [0, 0, 0, 0, 0, 0, 0, 0, 0, 0, 0, 0, 0, 0, 0, 0, 0, 0, 0, 0, 0, 0, 0, 0, 0, 0, 0, 0, 0, 0, 0, 0],
  [0, 0, 0, 0, 0, 0, 0, 0, 0, 0, 0, 0, 0, 0, 0, 0, 0, 0, 0, 0, 0, 0, 0, 0, 0, 0, 0, 0, 0, 0, 0, 0],
  [0, 0, 0, 0, 0, 0, 0, 0, 0, 0, 0, 0, 0, 0, 0, 0, 0, 0, 0, 0, 0, 0, 0, 0, 0, 0, 0, 0, 0, 0, 0, 0],
  [0, 0, 0, 0, 0, 0, 0, 0, 0, 0, 0, 0, 0, 0, 0, 0, 0, 0, 0, 0, 0, 0, 0, 0, 0, 0, 0, 0, 0, 0, 0, 0],
  [0, 0, 0, 0, 0, 0, 0, 0, 0, 0, 0, 0, 0, 0, 0, 0, 0, 0, 0, 0, 0, 0, 0, 0, 0, 0, 0, 0, 0, 0, 0, 0],
  [0, 0, 0, 0, 0, 0, 0, 0, 0, 0, 0, 0, 0, 0, 0, 0, 0, 0, 0, 0, 0, 0, 0, 0, 0, 0, 0, 0, 0, 0, 0, 0],
  [0, 0, 0, 0, 0, 0, 0, 0, 0, 0, 0, 0, 0, 0, 0, 0, 0, 0, 0, 0, 0, 0, 0, 0, 64, 72, 80, 88, 96, 104, 112, 120],
  [0, 0, 0, 0, 0, 0, 0, 0, 0, 0, 0, 0, 0, 0, 0, 0, 0, 0, 0, 0, 0, 0, 0, 0, 0, 0, 0, 0, 0, 0, 0, 0],
  [128, 136, 144, 152, 160, 168, 0, 0, 0, 0, 0, 0, 0, 0, 0, 0, 0, 0, 0, 0, 0, 0, 0, 0, 0, 0, 0, 0, 0, 0, 176, 184],
  [192, 200, 0, 0, 0, 0, 0, 0, 0, 0, 0, 0, 0, 0, 0, 0, 0, 0, 0, 0, 0, 0, 0, 0, 0, 0, 0, 0, 0, 0, 0, 0],
  [0, 0, 0, 0, 0, 0, 0, 0, 0, 0, 0, 0, 0, 0, 0, 0, 0, 0, 0, 0, 0, 0, 0, 0, 0, 0, 0, 0, 0, 0, 0, 0],
  [0, 0, 0, 0, 0, 0, 0, 0, 0, 0, 0, 0, 0, 0, 0, 0, 0, 0, 0, 0, 0, 0, 0, 0, 0, 0, 0, 0, 0, 0, 0, 0],
  [0, 0, 0, 0, 0, 0, 0, 0, 0, 0, 0, 0, 0, 0, 0, 0, 0, 0, 0, 0, 0, 0, 0, 0, 0, 0, 0, 0, 0, 0, 0, 0],
  [0, 0, 0, 0, 0, 0, 0, 0, 0, 0, 0, 0, 0, 0, 0, 0, 0, 0, 0, 0, 0, 0, 0, 0, 0, 0, 0, 0, 0, 0, 0, 0],
  [0, 0, 0, 0, 0, 0, 0, 0, 0, 0, 0, 0, 0, 0, 0, 0, 0, 0, 0, 0, 0, 0, 0, 0, 0, 0, 0, 0, 0, 0, 0, 0],
  [0, 0, 0, 0, 0, 0, 0, 0, 0, 0, 0, 0, 0, 0, 0, 0, 0, 0, 0, 0, 0, 0, 0, 0, 0, 0, 0, 208, 0, 0, 0, 216],
  [0, 0, 224, 232, 0, 240, 248, 0, 0, 0, 0, 0, 0, 0, 256, 0, 0, 0, 0, 0, 0, 0, 0, 264, 272, 0, 0, 0, 0, 0, 0, 0],
  [0, 0, 0, 0, 0, 0, 0, 0, 0, 0, 0, 0, 0, 0, 0, 0, 280, 0, 0, 0, 0, 0, 0, 0, 0, 0, 0, 0, 0, 0, 0, 0],
  [0, 0, 0, 0, 0, 0, 0, 0, 0, 0, 0, 0, 0, 0, 0, 0, 0, 0, 0, 0, 0, 0, 0, 0, 0, 0, 0, 0, 0, 0, 0, 0],
  [0, 0, 0, 0, 0, 0, 0, 0, 0, 0, 0, 0, 0, 0, 0, 0, 0, 0, 0, 0, 0, 0, 0, 0, 0, 0, 0, 0, 0, 0, 0, 0],
  [0, 0, 0, 0, 0, 0, 0, 0, 0, 0, 0, 0, 0, 0, 0, 0, 0, 0, 0, 0, 0, 0, 0, 0, 0, 0, 0, 0, 0, 0, 0, 0],
  [0, 0, 0, 0, 0, 0, 0, 0, 0, 0, 0, 0, 0, 0, 0, 0, 0, 0, 0, 0, 0, 0, 0, 0, 0, 0, 0, 0, 0, 0, 0, 0],
  [0, 0, 0, 0, 0, 0, 0, 0, 0, 0, 0, 0, 0, 0, 0, 0, 0, 0, 0, 0, 0, 0, 0, 0, 0, 0, 0, 0, 0, 0, 0, 0],
  [0, 0, 0, 0, 0, 0, 0, 0, 0, 0, 0, 0, 0, 0, 0, 0, 0, 0, 0, 0, 0, 0, 0, 0, 0, 0, 0, 0, 0, 0, 0, 288],
  [0, 296, 0, 0, 0, 304, 312, 320, 0, 328, 336, 344, 352, 360, 368, 376, 384, 392, 400, 408, 416, 424, 432, 440, 448, 0, 0, 0, 0, 0, 0, 0],
  [0, 456, 0, 0, 0, 0, 0, 0, 0, 0, 0, 0, 0, 0, 0, 0, 464, 472, 0, 0, 480, 488, 496, 504, 512, 520, 528, 536, 544, 552, 560, 568],
  [576, 584, 592, 600, 608, 616, 624, 632, 640, 648, 656, 664, 672, 680, 688, 696, 704, 712, 720, 728, 736, 744, 752, 760, 768, 776, 784, 792, 800, 808, 816, 824],
  [832, 840, 848, 856, 864, 872, 880, 888, 896, 904, 912, 920, 928, 936, 944, 952, 960, 968, 976, 984, 992, 1000, 1008, 1016, 1024, 1032, 1040, 1048, 1056, 1064, 1072, 1080],
  [1088, 1096, 1104, 1112, 1120, 1128, 1136, 1144, 1152, 1160, 1168, 1176, 1184, 1192, 1200, 1208, 1216, 1224, 1232, 1240, 1248, 1256, 1264, 1272, 1280, 1288, 1296, 1304, 1312, 1320, 1328, 1336],
  [1344, 1352, 1360, 1368, 1376, 0, 0, 0, 0, 0, 0, 0, 1384, 1392, 1400, 1408, 1416, 1424, 1432, 1440, 1448, 1456, 1464, 1472, 1480, 1488, 1496, 1504, 1512, 1520, 1528, 1536],
  [1544, 1552, 1560, 1568, 1576, 1584, 1592, 1600, 1608, 1616, 1624, 1632, 1640, 1648, 1656, 1664, 1672, 1680, 1688, 1696, 1704, 1712, 1720, 1728, 0, 0, 0, 0, 0, 0, 0, 0],
  [0, 0, 0, 0, 0, 0, 0, 0, 0, 0, 0, 0, 0, 0, 0, 0, 0, 0, 0, 0, 0, 0, 0, 0, 0, 1736, 1744, 1752, 1760, 1768, 1776, 1784],
  [0, 1792, 0, 0, 0, 0, 0, 0, 0, 0, 0, 0, 0, 0, 0, 0, 0, 0, 0, 0, 0, 0, 0, 0, 0, 0, 0, 0, 0, 0, 0, 1800],
  [0, 0, 0, 0, 0, 0, 0, 0, 0, 0, 0, 0, 0, 0, 0, 0, 0, 0, 0, 0, 0, 0, 0, 0, 0, 0, 0, 0, 0, 0, 0, 0],
  [0, 0, 0, 0, 0, 0, 0, 0, 0, 0, 0, 0, 0, 0, 0, 0, 0, 0, 0, 0, 0, 0, 0, 0, 0, 0, 0, 0, 0, 0, 0, 0],
  [0, 0, 0, 0, 0, 0, 0, 0, 0, 0, 0, 0, 0, 0, 0, 0, 0, 0, 0, 0, 0, 0, 0, 0, 0, 0, 0, 0, 0, 0, 0, 0],
  [0, 0, 0, 0, 0, 0, 0, 0, 0, 0, 0, 0, 0, 0, 0, 0, 0, 0, 0, 0, 0, 0, 0, 0, 0, 0, 0, 0, 0, 0, 0, 0],
  [0, 0, 0, 0, 0, 0, 0, 0, 0, 0, 0, 0, 0, 0, 0, 0, 0, 0, 0, 0, 0, 0, 0, 0, 0, 0, 0, 0, 0, 0, 0, 0],
  [0, 0, 0, 0, 0, 0, 0, 0, 0, 0, 0, 0, 0, 0, 0, 0, 0, 0, 0, 0, 0, 0, 0, 0, 0, 0, 0, 0, 0, 0, 0, 0],
  [0, 0, 0, 0, 0, 0, 0, 0, 0, 0, 0, 0, 0, 0, 0, 0, 0, 0, 0, 0, 0, 0, 0, 0, 0, 0, 0, 0, 0, 0, 0, 0],
  [1808, 1816, 1824, 1832, 1840, 1848, 0, 0, 0, 0, 0, 0, 0, 0, 0, 0, 1856, 0, 0, 0, 0, 0, 0, 0, 0, 0, 0, 0, 0, 0, 1864, 1872],
  [0, 1880, 0, 0, 0, 0, 0, 0, 0, 0, 0, 0, 0, 0, 0, 0, 0, 0, 0, 0, 0, 0, 0, 0, 0, 0, 0, 0, 0, 0, 0, 0],
  [0, 0, 0, 0, 0, 0, 0, 0, 0, 0, 0, 0, 0, 0, 0, 0, 0, 0, 0, 0, 0, 0, 0, 0, 0, 0, 0, 0, 0, 0, 0, 0],
  [0, 0, 0, 0, 0, 0, 0, 0, 0, 0, 0, 0, 0, 0, 0, 0, 0, 0, 0, 0, 0, 0, 0, 0, 0, 0, 0, 0, 0, 0, 0, 0],
  [0, 0, 0, 0, 0, 0, 0, 0, 0, 0, 0, 0, 0, 0, 0, 0, 0, 0, 0, 0, 0, 0, 0, 0, 0, 0, 0, 0, 0, 0, 0, 0],
  [0, 0, 0, 0, 0, 0, 0, 0, 0, 0, 0, 0, 0, 0, 0, 0, 0, 0, 0, 0, 0, 0, 0, 0, 0, 0, 0, 0, 0, 0, 0, 0],
  [0, 0, 0, 0, 0, 0, 0, 0, 0, 0, 0, 0, 0, 0, 0, 0, 0, 0, 0, 0, 0, 0, 0, 0, 0, 0, 0, 0, 0, 0, 0, 0],
  [0, 0, 0, 0, 0, 0, 0, 0, 0, 0, 0, 0, 0, 0, 0, 0, 0, 0, 0, 0, 0, 0, 0, 0, 0, 0, 0, 0, 0, 0, 0, 1888],
  [0, 0, 0, 0, 0, 0, 0, 0, 0, 1896, 1904, 1912, 1920, 1928, 0, 1936, 1944, 0, 0, 0, 0, 0, 0, 1952, 0, 0, 0, 0, 0, 0, 0, 0],
  [0, 0, 0, 0, 0, 0, 0, 0, 0, 0, 0, 0, 0, 0, 0, 0, 0, 0, 0, 0, 0, 0, 0, 0, 0, 0, 0, 0, 0, 0, 0, 0],
  [0, 0, 0, 0, 0, 0, 0, 0, 0, 0, 0, 0, 0, 0, 0, 0, 0, 0, 0, 0, 0, 0, 0, 0, 0, 0, 0, 0, 0, 0, 0, 0],
  [0, 0, 0, 0, 0, 0, 0, 0, 0, 0, 0, 0, 0, 0, 0, 0, 0, 0, 0, 0, 0, 0, 0, 0, 0, 0, 0, 0, 0, 0, 0, 0],
  [0, 0, 0, 0, 0, 0, 0, 0, 0, 0, 0, 0, 0, 0, 0, 0, 0, 0, 0, 0, 0, 0, 0, 0, 0, 0, 0, 0, 0, 0, 0, 0],
  [0, 0, 0, 0, 0, 0, 0, 0, 0, 0, 0, 0, 0, 0, 0, 0, 0, 0, 0, 0, 0, 0, 0, 0, 0, 0, 0, 0, 0, 0, 0, 0],
  [0, 0, 0, 0, 0, 0, 0, 0, 0, 0, 0, 0, 0, 0, 0, 0, 0, 0, 0, 0, 0, 0, 0, 0, 0, 0, 0, 0, 0, 0, 0, 0],
  [0, 0, 0, 0, 0, 0, 0, 0, 0, 0, 0, 0, 0, 0, 0, 0, 0, 0, 0, 0, 0, 0, 0, 0, 0, 0, 0, 0, 0, 0, 0, 0],
  [0, 0, 0, 0, 1960, 0, 1968, 0, 0, 0, 0, 0, 0, 0, 0, 0, 0, 0, 0, 0, 0, 0, 0, 0, 0, 0, 0, 0, 0, 0, 0, 0],
  [1976, 0, 0, 0, 0, 0, 0, 0, 0, 0, 0, 0, 0, 0, 0, 0, 0, 0, 0, 0, 0, 0, 0, 0, 0, 0, 0, 0, 0, 0, 0, 0],
  [0, 0, 0, 0, 0, 0, 0, 0, 0, 0, 0, 0, 0, 0, 0, 0, 0, 0, 0, 0, 0, 0, 0, 0, 0, 0, 0, 0, 0, 0, 0, 0],
  [0, 0, 0, 0, 0, 0, 0, 0, 0, 0, 0, 0, 0, 0, 0, 0, 0, 0, 0, 0, 0, 0, 0, 0, 0, 0, 0, 0, 0, 0, 0, 0],
  [0, 0, 0, 0, 0, 0, 0, 0, 0, 0, 0, 0, 0, 0, 0, 0, 0, 0, 0, 0, 0, 0, 0, 0, 0, 0, 0, 0, 0, 0, 0, 0],
  [0, 0, 0, 0, 0, 0, 0, 0, 0, 0, 0, 0, 0, 0, 0, 0, 0, 0, 0, 0, 0, 0, 0, 0, 0, 0, 0, 0, 0, 0, 0, 0],
  [0, 0, 0, 0, 0, 0, 0, 0, 0, 0, 0, 0, 0, 0, 0, 0, 0, 0, 0, 0, 0, 0, 0, 0, 0, 0, 0, 0, 0, 0, 0, 0],
  [0, 0, 0, 0, 0, 0, 0, 0, 0, 0, 0, 0, 0, 0, 0, 0, 0, 0, 0, 0, 0, 0, 0, 0, 0, 0, 0, 0, 0, 0, 0, 0],
  [0, 0, 0, 1984, 1992, 2000, 2008, 2016, 0, 2024, 2032, 2040, 2048, 2056, 2064, 2072, 2080, 0, 0, 0, 0, 0, 0, 2088, 2096, 0, 0, 0, 0, 0, 0, 0],
  [2104, 0, 0, 0, 0, 0, 0, 0, 0, 0, 0, 0, 0, 0, 0, 0, 2112, 0, 0, 0, 0, 0, 0, 0, 0, 0, 0, 0, 0, 0, 0, 0],
  [0, 0, 0, 0, 0, 0, 0, 0, 0, 0, 0, 0, 0, 0, 0, 0, 0, 0, 0, 0, 0, 0, 0, 0, 0, 0, 0, 0, 0, 0, 0, 0],
  [0, 0, 0, 0, 0, 0, 0, 0, 0, 0, 0, 0, 0, 0, 0, 0, 0, 0, 0, 0, 0, 0, 0, 0, 0, 0, 0, 0, 0, 0, 0, 0],
  [0, 0, 0, 0, 0, 0, 0, 0, 0, 0, 0, 0, 0, 0, 0, 0, 0, 0, 0, 0, 0, 0, 0, 0, 0, 0, 0, 0, 0, 0, 0, 0],
  [0, 0, 0, 0, 0, 0, 0, 0, 0, 0, 0, 0, 0, 0, 0, 0, 0, 0, 0, 0, 0, 0, 0, 0, 0, 0, 0, 0, 0, 0, 0, 0],
  [0, 0, 0, 0, 0, 0, 0, 0, 0, 0, 0, 0, 0, 0, 0, 0, 0, 0, 0, 0, 0, 0, 0, 0, 0, 0, 0, 0, 0, 0, 0, 0],
  [0, 0, 0, 0, 0, 0, 0, 0, 0, 0, 0, 0, 0, 0, 0, 0, 0, 0, 0, 0, 0, 0, 0, 0, 0, 0, 0, 2120, 0, 0, 2128, 0],
  [2136, 0, 0, 0, 0, 0, 2144, 0, 0, 2152, 2160, 2168, 2176, 2184, 2192, 2200, 2208, 0, 0, 2216, 0, 0, 0, 2224, 2232, 0, 0, 0, 0, 0, 0, 0],
  [0, 0, 0, 0, 0, 0, 0, 0, 0, 0, 0, 0, 0, 0, 0, 0, 0, 0, 0, 0, 0, 0, 0, 0, 0, 0, 0, 0, 0, 0, 0, 0],
  [0, 0, 0, 0, 0, 0, 0, 0, 0, 0, 0, 0, 0, 0, 0, 0, 0, 0, 0, 0, 0, 0, 0, 0, 0, 0, 0, 0, 0, 0, 0, 0],
  [0, 0, 0, 0, 0, 0, 0, 0, 0, 0, 0, 0, 0, 0, 0, 0, 0, 0, 0, 0, 0, 0, 0, 0, 0, 0, 0, 0, 0, 0, 0, 0],
  [0, 0, 0, 0, 0, 0, 0, 0, 0, 0, 0, 0, 0, 0, 0, 0, 0, 0, 0, 0, 0, 0, 0, 0, 0, 0, 0, 0, 0, 0, 0, 0],
  [0, 0, 0, 0, 0, 0, 0, 0, 0, 0, 0, 0, 0, 0, 0, 0, 0, 0, 0, 0, 0, 0, 0, 0, 0, 0, 0, 0, 0, 0, 0, 0],
  [0, 0, 0, 0, 0, 0, 0, 0, 0, 0, 0, 0, 0, 0, 0, 0, 0, 0, 0, 0, 0, 0, 0, 0, 0, 0, 0, 0, 0, 0, 0, 0],
  [0, 0, 0, 0, 0, 0, 0, 0, 0, 0, 0, 0, 0, 0, 0, 0, 0, 0, 0, 0, 0, 0, 0, 0, 0, 0, 0, 0, 0, 0, 0, 2240],
  [0, 0, 0, 0, 0, 0, 0, 0, 0, 0, 0, 0, 0, 0, 0, 0, 0, 0, 0, 0, 0, 0, 2248, 0, 0, 0, 0, 0, 0, 0, 0, 0],
  [0, 2256, 0, 0, 0, 0, 0, 0, 0, 0, 0, 0, 0, 0, 0, 0, 2264, 0, 0, 0, 0, 0, 0, 0, 0, 0, 0, 0, 0, 0, 0, 0],
  [0, 0, 0, 0, 0, 0, 0, 0, 0, 0, 0, 0, 0, 0, 0, 0, 0, 0, 0, 0, 0, 0, 0, 0, 0, 0, 0, 0, 0, 0, 0, 0],
  [0, 0, 0, 0, 0, 0, 0, 0, 0, 0, 0, 0, 0, 0, 0, 0, 0, 0, 0, 0, 0, 0, 0, 0, 0, 0, 0, 0, 0, 0, 0, 0],
  [0, 0, 0, 0, 0, 0, 0, 0, 0, 0, 0, 0, 0, 0, 0, 0, 0, 0, 0, 0, 0, 0, 0, 0, 0, 0, 0, 0, 0, 0, 0, 0],
  [0, 0, 0, 0, 0, 0, 0, 0, 0, 0, 0, 0, 0, 0, 0, 0, 0, 0, 0, 0, 0, 0, 0, 0, 0, 0, 0, 0, 0, 0, 0, 0],
  [0, 0, 0, 0, 0, 0, 0, 0, 0, 0, 0, 0, 0, 0, 0, 0, 0, 0, 0, 0, 0, 0, 0, 0, 0, 0, 0, 0, 0, 0, 0, 0],
  [0, 0, 0, 0, 0, 0, 0, 0, 0, 0, 0, 0, 0, 0, 0, 0, 0, 0, 0, 0, 0, 0, 0, 0, 0, 0, 0, 0, 0, 0, 0, 0],
  [2272, 0, 0, 0, 0, 0, 0, 0, 0, 2280, 0, 2288, 0, 0, 0, 2296, 0, 0, 0, 2304, 0, 0, 0, 0, 0, 0, 0, 0, 0, 0, 0, 0],
  [2312, 2320, 0, 0, 2328, 0, 0, 2336, 0, 0, 0, 0, 0, 0, 0, 0, 0, 2344, 2352, 0, 0, 0, 0, 0, 0, 0, 0, 0, 0, 0, 0, 0],
  [0, 0, 0, 0, 0, 0, 0, 0, 0, 0, 0, 0, 0, 0, 0, 0, 0, 0, 0, 0, 0, 0, 0, 0, 0, 0, 0, 0, 0, 0, 0, 0],
  [0, 0, 0, 0, 0, 0, 0, 0, 0, 0, 0, 0, 0, 0, 0, 0, 0, 0, 0, 0, 0, 0, 0, 0, 0, 0, 0, 0, 0, 0, 0, 0],
  [0, 0, 0, 0, 0, 0, 0, 0, 0, 0, 0, 0, 0, 0, 0, 0, 0, 0, 0, 0, 0, 0, 0, 0, 0, 0, 0, 0, 0, 0, 0, 0],
  [0, 0, 0, 0, 0, 0, 0, 0, 0, 0, 0, 0, 0, 0, 0, 0, 0, 0, 0, 0, 0, 0, 0, 0, 0, 0, 0, 0, 0, 0, 0, 0],
  [0, 0, 0, 0, 0, 0, 0, 0, 0, 0, 0, 0, 0, 0, 0, 0, 0, 0, 0, 0, 0, 0, 0, 0, 0, 0, 0, 0, 0, 0, 0, 0],
  [0, 0, 0, 0, 0, 0, 0, 0, 0, 0, 0, 0, 0, 0, 0, 0, 0, 0, 0, 0, 0, 0, 0, 0, 0, 0, 0, 0, 0, 0, 0, 0],
  [2360, 0, 0, 0, 0, 0, 0, 0, 0, 0, 0, 0, 0, 0, 0, 0, 0, 0, 0, 0, 0, 0, 0, 0, 0, 0, 0, 0, 0, 0, 0, 0],
  [2368, 0, 0, 0, 0, 0, 0, 0, 0, 0, 0, 0, 0, 0, 0, 0, 2376, 0, 0, 0, 0, 0, 0, 0, 0, 0, 0, 0, 0, 0, 0, 0],
  [0, 0, 0, 0, 0, 0, 0, 0, 0, 0, 0, 0, 0, 0, 0, 0, 0, 0, 0, 0, 0, 0, 0, 0, 0, 0, 0, 0, 0, 0, 0, 0],
  [0, 0, 0, 0, 0, 0, 0, 0, 0, 0, 0, 0, 0, 0, 0, 0, 0, 0, 0, 0, 0, 0, 0, 0, 0, 0, 0, 0, 0, 0, 0, 0],
  [0, 0, 0, 0, 0, 0, 0, 0, 0, 0, 0, 0, 0, 0, 0, 0, 0, 0, 0, 0, 0, 0, 0, 0, 0, 0, 0, 0, 0, 0, 0, 0],
  [0, 0, 0, 0, 0, 0, 0, 0, 0, 0, 0, 0, 0, 0, 0, 0, 0, 0, 0, 0, 0, 0, 0, 0, 0, 0, 0, 0, 0, 0, 0, 0],
  [0, 0, 0, 0, 0, 0, 0, 0, 0, 0, 0, 0, 0, 0, 0, 0, 0, 0, 0, 0, 0, 0, 0, 0, 0, 0, 0, 0, 0, 0, 0, 0],
  [0, 0, 0, 0, 0, 0, 0, 0, 0, 0, 0, 0, 0, 0, 0, 0, 0, 0, 0, 0, 0, 0, 0, 0, 0, 0, 0, 0, 0, 0, 2384, 2392],
  [2400, 0, 0, 0, 0, 2408, 0, 0, 0, 0, 0, 0, 0, 0, 0, 0, 0, 0, 0, 0, 0, 0, 0, 0, 2416, 0, 0, 0, 0, 0, 0, 0],
  [2424, 0, 0, 0, 0, 0, 0, 0, 0, 0, 0, 0, 0, 0, 0, 0, 2432, 0, 0, 0, 0, 0, 0, 0, 0, 0, 0, 0, 0, 0, 0, 0],
  [0, 0, 0, 0, 0, 0, 0, 0, 0, 0, 0, 0, 0, 0, 0, 0, 0, 0, 0, 0, 0, 0, 0, 0, 0, 0, 0, 0, 0, 0, 0, 0],
  [0, 0, 0, 0, 0, 0, 0, 0, 0, 0, 0, 0, 0, 0, 0, 0, 0, 0, 0, 0, 0, 0, 0, 0, 0, 0, 0, 0, 0, 0, 0, 0],
  [0, 0, 0, 0, 0, 0, 0, 0, 0, 0, 0, 0, 0, 0, 0, 0, 0, 0, 0, 0, 0, 0, 0, 0, 0, 0, 0, 0, 0, 0, 0, 0],
  [0, 0, 0, 0, 0, 0, 0, 0, 0, 0, 0, 0, 0, 0, 0, 0, 0, 0, 0, 0, 0, 0, 0, 0, 0, 0, 0, 0, 0, 0, 0, 0],
  [0, 0, 0, 0, 0, 0, 0, 0, 0, 0, 0, 0, 0, 0, 0, 0, 0, 0, 0, 0, 0, 0, 0, 0, 0, 0, 0, 0, 0, 0, 0, 0],
  [0, 0, 0, 0, 0, 0, 0, 0, 0, 0, 0, 0, 0, 0, 0, 0, 0, 0, 0, 0, 0, 0, 0, 0, 0, 0, 0, 0, 0, 0, 2440, 2448],
  [2456, 0, 0, 0, 0, 0, 0, 0, 0, 0, 0, 0, 0, 0, 0, 2464, 0, 0, 0, 0, 0, 0, 2472, 0, 0, 0, 0, 0, 0, 0, 0, 0],
  [2480, 0, 0, 2488, 0, 0, 0, 2496, 0, 2504, 0, 0, 0, 0, 0, 0, 2512, 0, 0, 0, 0, 0, 0, 0, 0, 0, 0, 0, 0, 0, 0, 0],
  [0, 0, 0, 0, 0, 0, 0, 0, 0, 0, 0, 0, 0, 0, 0, 0, 0, 0, 0, 0, 0, 0, 0, 0, 0, 0, 0, 0, 0, 0, 0, 0],
  [0, 0, 0, 0, 0, 0, 0, 0, 0, 0, 0, 0, 0, 0, 0, 0, 0, 0, 0, 0, 0, 0, 0, 0, 0, 0, 0, 0, 0, 0, 0, 0],
  [0, 0, 0, 0, 0, 0, 0, 0, 0, 0, 0, 0, 0, 0, 0, 0, 0, 0, 0, 0, 0, 0, 0, 0, 0, 0, 0, 0, 0, 0, 0, 0],
  [0, 0, 0, 0, 0, 0, 0, 0, 0, 0, 0, 0, 0, 0, 0, 0, 0, 0, 0, 0, 0, 0, 0, 0, 0, 0, 0, 0, 0, 0, 0, 0],
  [0, 0, 0, 0, 0, 0, 0, 0, 0, 0, 0, 0, 0, 0, 0, 0, 0, 0, 0, 0, 0, 0, 0, 0, 0, 0, 0, 0, 0, 0, 0, 0],
  [0, 0, 0, 0, 0, 0, 0, 0, 0, 0, 0, 0, 0, 0, 0, 0, 0, 0, 0, 0, 0, 0, 0, 0, 0, 0, 0, 0, 0, 2520, 2528, 2536],
  [2544, 0, 0, 0, 0, 0, 0, 0, 0, 0, 0, 0, 0, 0, 0, 0, 0, 0, 0, 0, 0, 0, 0, 0, 0, 0, 0, 0, 0, 0, 0, 0],
  [2552, 0, 0, 0, 0, 0, 0, 0, 0, 0, 0, 0, 0, 0, 0, 0, 0, 0, 0, 0, 0, 0, 0, 0, 0, 0, 0, 0, 0, 0, 0, 0],
  [0, 0, 0, 0, 0, 0, 0, 0, 0, 0, 0, 0, 0, 0, 0, 0, 0, 0, 0, 0, 0, 0, 0, 0, 0, 0, 0, 0, 0, 0, 0, 0],
  [0, 0, 0, 0, 0, 0, 0, 0, 0, 0, 0, 0, 0, 0, 0, 0, 0, 0, 0, 0, 0, 0, 0, 0, 0, 0, 0, 0, 0, 0, 0, 0],
  [0, 0, 0, 0, 0, 0, 0, 0, 0, 0, 0, 0, 0, 0, 0, 0, 0, 0, 0, 0, 0, 0, 0, 0, 0, 0, 0, 0, 0, 0, 0, 0],
  [0, 0, 0, 0, 0, 0, 0, 0, 0, 0, 0, 0, 0, 0, 0, 0, 0, 0, 0, 0, 0, 0, 0, 0, 0, 0, 0, 0, 0, 0, 0, 0],
  [0, 0, 0, 0, 0, 0, 0, 0, 0, 0, 0, 0, 0, 0, 0, 0, 0, 0, 0, 0, 0, 0, 0, 0, 0, 0, 0, 0, 0, 0, 0, 0],
  [0, 0, 0, 0, 0, 0, 0, 0, 0, 0, 0, 0, 0, 0, 0, 0, 0, 0, 0, 0, 0, 0, 0, 0, 0, 0, 0, 0, 0, 0, 0, 0],
  [2560, 0, 0, 0, 0, 0, 0, 0, 0, 0, 0, 0, 0, 0, 0, 0, 0, 0, 0, 0, 0, 0, 0, 0, 0, 0, 0, 0, 0, 0, 0, 0],
  [2568, 0, 0, 0, 0, 0, 0, 0, 0, 0, 0, 0, 0, 0, 0, 0, 0, 0, 0, 0, 0, 0, 0, 0, 0, 0, 0, 0, 0, 0, 0, 0],
  [0, 0, 0, 0, 0, 0, 0, 0, 0, 0, 0, 0, 0, 0, 0, 0, 0, 0, 0, 0, 0, 0, 0, 0, 0, 0, 0, 0, 0, 0, 0, 0],
  [0, 0, 0, 0, 0, 0, 0, 0, 0, 0, 0, 0, 0, 0, 0, 0, 0, 0, 0, 0, 0, 0, 0, 0, 0, 0, 0, 0, 0, 0, 0, 0],
  [0, 0, 0, 0, 0, 0, 0, 0, 0, 0, 0, 0, 0, 0, 0, 0, 0, 0, 0, 0, 0, 0, 0, 0, 0, 0, 0, 0, 0, 0, 0, 0],
  [0, 0, 0, 0, 0, 0, 0, 0, 0, 0, 0, 0, 0, 0, 0, 0, 0, 0, 0, 0, 0, 0, 0, 0, 0, 0, 0, 0, 0, 0, 0, 0],
  [0, 0, 0, 0, 0, 0, 0, 0, 0, 0, 0, 0, 0, 0, 0, 0, 0, 0, 0, 0, 0, 0, 0, 0, 0, 0, 0, 0, 0, 0, 0, 0],
  [0, 0, 0, 0, 0, 0, 0, 0, 0, 0, 0, 0, 0, 0, 0, 0, 0, 0, 0, 0, 0, 0, 0, 0, 0, 0, 0, 0, 0, 0, 0, 0],
  [2576, 0, 0, 2584, 0, 2592, 2600, 2608, 0, 2616, 0, 0, 0, 2624, 2632, 2640, 2648, 0, 0, 2656, 0, 0, 2664, 2672, 2680, 0, 0, 0, 0, 0, 0, 0],
  [2688, 0, 0, 2696, 0, 0, 0, 0, 0, 0, 0, 0, 0, 0, 0, 0, 2704, 0, 0, 0, 0, 0, 0, 0, 0, 0, 0, 0, 0, 0, 0, 0],
  [0, 0, 0, 0, 0, 0, 0, 0, 0, 0, 0, 0, 0, 0, 0, 0, 0, 0, 0, 0, 0, 0, 0, 0, 0, 0, 0, 0, 0, 0, 0, 0],
  [0, 0, 0, 0, 0, 0, 0, 0, 0, 0, 0, 0, 0, 0, 0, 0, 0, 0, 0, 0, 0, 0, 0, 0, 0, 0, 0, 0, 0, 0, 0, 0],
  [0, 0, 0, 0, 0, 0, 0, 0, 0, 0, 0, 0, 0, 0, 0, 0, 0, 0, 0, 0, 0, 0, 0, 0, 0, 0, 0, 0, 0, 0, 0, 0],
  [0, 0, 0, 0, 0, 0, 0, 0, 0, 0, 0, 0, 0, 0, 0, 0, 0, 0, 0, 0, 0, 0, 0, 0, 0, 0, 0, 0, 0, 0, 0, 0],
  [0, 0, 0, 0, 0, 0, 0, 0, 0, 0, 0, 0, 0, 0, 0, 0, 0, 0, 0, 0, 0, 0, 0, 0, 0, 0, 0, 0, 0, 0, 0, 0],
  [0, 0, 0, 0, 0, 0, 0, 0, 0, 0, 0, 0, 0, 0, 0, 0, 0, 0, 0, 0, 0, 0, 0, 0, 0, 0, 0, 0, 0, 0, 2712, 2720],
  [2728, 0, 0, 0, 0, 0, 0, 0, 0, 0, 0, 0, 0, 0, 0, 2736, 0, 0, 0, 0, 0, 0, 2744, 0, 0, 0, 0, 0, 0, 0, 0, 0],
  [2752, 0, 0, 2760, 0, 0, 0, 2768, 0, 2776, 0, 0, 0, 0, 0, 0, 2784, 0, 0, 0, 0, 0, 0, 0, 0, 0, 0, 0, 0, 0, 0, 0],
  [0, 0, 0, 0, 0, 0, 0, 0, 0, 0, 0, 0, 0, 0, 0, 0, 0, 0, 0, 0, 0, 0, 0, 0, 0, 0, 0, 0, 0, 0, 0, 0],
  [0, 0, 0, 0, 0, 0, 0, 0, 0, 0, 0, 0, 0, 0, 0, 0, 0, 0, 0, 0, 0, 0, 0, 0, 0, 0, 0, 0, 0, 0, 0, 0],
  [0, 0, 0, 0, 0, 0, 0, 0, 0, 0, 0, 0, 0, 0, 0, 0, 0, 0, 0, 0, 0, 0, 0, 0, 0, 0, 0, 0, 0, 0, 0, 0],
  [0, 0, 0, 0, 0, 0, 0, 0, 0, 0, 0, 0, 0, 0, 0, 0, 0, 0, 0, 0, 0, 0, 0, 0, 0, 0, 0, 0, 0, 0, 0, 0],
  [0, 0, 0, 0, 0, 0, 0, 0, 0, 0, 0, 0, 0, 0, 0, 0, 0, 0, 0, 0, 0, 0, 0, 0, 0, 0, 0, 0, 0, 0, 0, 0],
  [0, 0, 0, 0, 0, 0, 0, 0, 0, 0, 0, 0, 0, 0, 0, 0, 0, 0, 0, 0, 0, 0, 0, 0, 0, 0, 0, 0, 0, 2792, 2800, 2808],
  [2816, 0, 0, 0, 0, 0, 0, 0, 0, 2824, 0, 0, 0, 0, 2832, 0, 0, 0, 0, 0, 0, 0, 0, 2840, 0, 0, 0, 0, 0, 0, 0, 0],
  [2848, 0, 0, 0, 0, 0, 0, 0, 0, 0, 0, 0, 0, 0, 0, 0, 0, 0, 0, 0, 0, 0, 0, 0, 0, 0, 0, 0, 0, 0, 0, 0],
  [0, 0, 0, 0, 0, 0, 0, 0, 0, 0, 0, 0, 0, 0, 0, 0, 0, 0, 0, 0, 0, 0, 0, 0, 0, 0, 0, 0, 0, 0, 0, 0],
  [0, 0, 0, 0, 0, 0, 0, 0, 0, 0, 0, 0, 0, 0, 0, 0, 0, 0, 0, 0, 0, 0, 0, 0, 0, 0, 0, 0, 0, 0, 0, 0],
  [0, 0, 0, 0, 0, 0, 0, 0, 0, 0, 0, 0, 0, 0, 0, 0, 0, 0, 0, 0, 0, 0, 0, 0, 0, 0, 0, 0, 0, 0, 0, 0],
  [0, 0, 0, 0, 0, 0, 0, 0, 0, 0, 0, 0, 0, 0, 0, 0, 0, 0, 0, 0, 0, 0, 0, 0, 0, 0, 0, 0, 0, 0, 0, 0],
  [0, 0, 0, 0, 0, 0, 0, 0, 0, 0, 0, 0, 0, 0, 0, 0, 0, 0, 0, 0, 0, 0, 0, 0, 0, 0, 0, 0, 0, 0, 0, 0],
  [0, 0, 0, 0, 0, 0, 0, 0, 0, 0, 0, 0, 0, 0, 0, 0, 0, 0, 0, 0, 0, 0, 0, 0, 0, 0, 0, 0, 0, 2856, 2864, 2872],
  [2880, 0, 2888, 2896, 0, 0, 0, 0, 0, 0, 0, 0, 0, 0, 0, 0, 0, 0, 0, 0, 0, 0, 0, 0, 0, 0, 0, 0, 0, 0, 0, 2904],
  [0, 0, 0, 0, 0, 0, 0, 0, 0, 0, 0, 0, 0, 0, 0, 0, 2912, 0, 0, 0, 0, 0, 0, 0, 0, 0, 0, 0, 0, 0, 0, 0],
  [0, 0, 0, 0, 0, 0, 0, 0, 0, 0, 0, 0, 0, 0, 0, 0, 0, 0, 0, 0, 0, 0, 0, 0, 0, 0, 0, 0, 0, 0, 0, 0],
  [0, 0, 0, 0, 0, 0, 0, 0, 0, 0, 0, 0, 0, 0, 0, 0, 0, 0, 0, 0, 0, 0, 0, 0, 0, 0, 0, 0, 0, 0, 0, 0],
  [0, 0, 0, 0, 0, 0, 0, 0, 0, 0, 0, 0, 0, 0, 0, 0, 0, 0, 0, 0, 0, 0, 0, 0, 0, 0, 0, 0, 0, 0, 0, 0],
  [0, 0, 0, 0, 0, 0, 0, 0, 0, 0, 0, 0, 0, 0, 0, 0, 0, 0, 0, 0, 0, 0, 0, 0, 0, 0, 0, 0, 0, 0, 0, 0],
  [0, 0, 0, 0, 0, 0, 0, 0, 0, 0, 0, 0, 0, 0, 0, 0, 0, 0, 0, 0, 0, 0, 0, 0, 0, 0, 0, 0, 0, 0, 0, 0],
  [0, 0, 0, 0, 0, 0, 0, 0, 0, 0, 0, 0, 0, 0, 0, 0, 0, 0, 0, 0, 0, 0, 0, 0, 0, 0, 0, 0, 0, 0, 0, 2920],
  [2928, 0, 0, 2936, 0, 0, 0, 0, 0, 0, 0, 0, 0, 0, 0, 0, 0, 0, 0, 0, 0, 0, 0, 0, 0, 0, 0, 0, 0, 0, 0, 0],
  [2944, 2952, 2960, 2968, 0, 2976, 2984, 2992, 0, 3000, 3008, 0, 0, 0, 0, 0, 0, 0, 0, 0, 0, 0, 0, 0, 0, 0, 0, 0, 0, 0, 0, 0],
  [0, 0, 0, 0, 0, 0, 0, 0, 0, 0, 0, 0, 0, 0, 0, 0, 0, 0, 0, 0, 0, 0, 0, 0, 0, 0, 0, 0, 0, 0, 0, 0],
  [0, 0, 0, 0, 0, 0, 0, 0, 0, 0, 0, 0, 0, 0, 0, 0, 0, 0, 0, 0, 0, 0, 0, 0, 0, 0, 0, 0, 0, 0, 0, 0],
  [0, 0, 0, 0, 0, 0, 0, 0, 0, 0, 0, 0, 0, 0, 0, 0, 0, 0, 0, 0, 0, 0, 0, 0, 0, 0, 0, 0, 0, 0, 0, 0],
  [0, 0, 0, 0, 0, 0, 0, 0, 0, 0, 0, 0, 0, 0, 0, 0, 0, 0, 0, 0, 0, 0, 0, 0, 0, 0, 0, 0, 0, 0, 0, 0],
  [0, 0, 0, 0, 0, 0, 0, 0, 0, 0, 0, 0, 0, 0, 0, 0, 0, 0, 0, 0, 0, 0, 0, 0, 0, 0, 0, 0, 0, 0, 0, 0],
  [0, 0, 0, 0, 0, 0, 0, 0, 0, 0, 0, 0, 0, 0, 0, 0, 0, 0, 0, 0, 0, 0, 0, 0, 0, 0, 0, 3016, 0, 0, 3024, 3032],
  [3040, 0, 0, 0, 3048, 0, 3056, 0, 0, 3064, 0, 3072, 0, 0, 0, 3080, 0, 0, 0, 0, 0, 0, 0, 0, 0, 0, 0, 0, 0, 0, 0, 0],
  [0, 3088, 0, 3096, 3104, 3112, 3120, 3128, 3136, 0, 0, 0, 0, 0, 3144, 3152, 3160, 3168, 3176, 3184, 0, 0, 0, 0, 0, 0, 0, 0, 0, 0, 0, 0],
  [0, 0, 0, 0, 0, 0, 0, 0, 0, 0, 0, 0, 0, 0, 0, 0, 0, 0, 0, 0, 0, 0, 0, 0, 0, 0, 0, 0, 0, 0, 0, 0],
  [0, 0, 0, 0, 0, 0, 0, 0, 0, 0, 0, 0, 0, 0, 0, 0, 0, 0, 0, 0, 0, 0, 0, 0, 0, 0, 0, 0, 0, 0, 0, 0],
  [0, 0, 0, 0, 0, 0, 0, 0, 0, 0, 0, 0, 0, 0, 0, 0, 0, 0, 0, 0, 0, 0, 0, 0, 0, 0, 0, 0, 0, 0, 0, 0],
  [0, 0, 0, 0, 3192, 0, 0, 0, 0, 0, 0, 0, 0, 0, 0, 0, 0, 0, 0, 0, 0, 0, 0, 0, 0, 0, 0, 0, 0, 0, 0, 0],
  [0, 0, 0, 0, 0, 0, 0, 0, 0, 0, 0, 0, 0, 0, 0, 0, 0, 0, 0, 0, 0, 0, 0, 0, 0, 0, 0, 0, 0, 0, 0, 0],
  [0, 0, 0, 0, 0, 0, 0, 0, 0, 0, 0, 0, 0, 0, 0, 0, 0, 0, 0, 0, 0, 0, 0, 0, 0, 0, 0, 0, 0, 0, 0, 3200],
  [0, 0, 0, 0, 0, 0, 0, 0, 0, 0, 0, 0, 0, 0, 0, 0, 0, 0, 0, 0, 0, 0, 0, 0, 0, 0, 0, 0, 0, 0, 0, 0],
  [3208, 0, 0, 0, 0, 0, 0, 0, 0, 0, 0, 0, 0, 0, 0, 0, 0, 0, 0, 0, 0, 0, 0, 0, 0, 0, 0, 0, 0, 0, 0, 0],
  [0, 0, 0, 0, 0, 0, 0, 0, 0, 0, 0, 0, 0, 0, 0, 0, 0, 0, 0, 0, 0, 0, 0, 0, 0, 0, 0, 0, 0, 0, 0, 0],
  [0, 0, 0, 0, 0, 0, 0, 0, 0, 0, 0, 0, 0, 0, 0, 0, 0, 0, 0, 0, 0, 0, 0, 0, 0, 0, 0, 0, 0, 0, 0, 0],
  [0, 0, 0, 0, 0, 0, 0, 0, 0, 0, 0, 0, 0, 0, 0, 0, 0, 0, 0, 0, 0, 0, 0, 0, 0, 0, 0, 0, 0, 0, 0, 0],
  [0, 0, 0, 0, 0, 0, 0, 0, 0, 0, 0, 0, 0, 0, 0, 0, 0, 0, 0, 0, 0, 0, 0, 0, 0, 0, 0, 0, 0, 0, 0, 0],
  [0, 0, 0, 0, 0, 0, 0, 0, 0, 0, 0, 0, 0, 0, 0, 0, 0, 0, 0, 0, 0, 0, 0, 0, 0, 0, 0, 0, 0, 0, 0, 0],
  [0, 0, 0, 0, 0, 0, 0, 0, 0, 0, 0, 0, 0, 0, 0, 0, 0, 0, 0, 0, 0, 0, 0, 0, 0, 0, 0, 0, 0, 0, 0, 0],
  [0, 0, 0, 0, 0, 0, 0, 0, 0, 0, 0, 0, 0, 0, 0, 0, 0, 0, 0, 0, 0, 0, 0, 0, 0, 0, 0, 0, 0, 0, 0, 0],
  [3216, 0, 0, 0, 0, 0, 0, 0, 0, 0, 0, 0, 0, 0, 0, 0, 0, 0, 0, 0, 0, 0, 0, 0, 0, 0, 0, 0, 0, 0, 0, 0],
  [0, 0, 0, 0, 0, 0, 0, 0, 0, 0, 0, 0, 0, 0, 0, 0, 0, 0, 0, 0, 0, 0, 0, 0, 0, 0, 0, 0, 0, 0, 0, 0],
  [0, 0, 0, 0, 0, 0, 0, 0, 0, 0, 0, 0, 0, 0, 0, 0, 0, 0, 0, 0, 0, 0, 0, 0, 0, 0, 0, 0, 0, 0, 0, 0],
  [0, 0, 0, 0, 0, 0, 0, 0, 0, 0, 0, 0, 0, 0, 0, 0, 0, 0, 0, 0, 0, 0, 0, 0, 0, 0, 0, 0, 0, 0, 0, 0],
  [0, 0, 0, 0, 0, 0, 0, 0, 0, 0, 0, 0, 0, 0, 0, 0, 0, 0, 0, 0, 0, 0, 0, 0, 0, 0, 0, 0, 0, 0, 0, 0],
  [0, 0, 0, 0, 0, 0, 0, 0, 0, 0, 0, 0, 0, 0, 0, 0, 0, 0, 0, 0, 0, 0, 0, 0, 0, 0, 0, 0, 0, 0, 0, 0],
  [0, 0, 0, 0, 0, 0, 0, 0, 0, 0, 0, 0, 0, 0, 0, 0, 0, 0, 0, 0, 0, 0, 0, 0, 0, 0, 0, 0, 0, 0, 0, 0],
  [3224, 0, 0, 0, 0, 0, 0, 0, 0, 0, 0, 0, 0, 0, 0, 0, 0, 0, 0, 0, 0, 0, 3232, 0, 0, 0, 0, 0, 0, 0, 0, 0],
  [3240, 0, 0, 0, 0, 0, 0, 0, 0, 0, 0, 0, 0, 0, 0, 0, 3248, 0, 0, 0, 0, 0, 0, 0, 0, 0, 0, 0, 0, 0, 0, 0],
  [0, 0, 0, 0, 0, 0, 0, 0, 0, 0, 0, 0, 0, 0, 0, 0, 0, 0, 0, 0, 0, 0, 0, 0, 0, 0, 0, 0, 0, 0, 0, 0],
  [0, 0, 0, 0, 0, 0, 0, 0, 0, 0, 0, 0, 0, 0, 0, 0, 0, 0, 0, 0, 0, 0, 0, 0, 0, 0, 0, 0, 0, 0, 0, 0],
  [0, 0, 0, 0, 0, 0, 0, 0, 0, 0, 0, 0, 0, 0, 0, 0, 0, 0, 0, 0, 0, 0, 0, 0, 0, 0, 0, 0, 0, 0, 0, 0],
  [0, 0, 0, 0, 0, 0, 0, 0, 0, 0, 0, 0, 0, 0, 0, 0, 0, 0, 0, 0, 0, 0, 0, 0, 0, 0, 0, 0, 0, 0, 0, 0],
  [0, 0, 0, 0, 0, 0, 0, 0, 0, 0, 0, 0, 0, 0, 0, 0, 0, 0, 0, 0, 0, 0, 0, 0, 0, 0, 0, 0, 0, 0, 0, 0],
  [0, 0, 0, 0, 0, 0, 0, 0, 0, 0, 0, 0, 0, 0, 0, 0, 0, 0, 0, 0, 0, 0, 0, 0, 0, 0, 0, 0, 0, 0, 0, 0]]

/-- `arr_idxCharCategory`, x_charcategory2.h 97-593, in rows -/
def catBits : List (List Nat) := [
  [0, 0, 0, 0, 0, 0, 0, 0],
  [4294967295, 0, 0, 2147483648, 4294967295, 0, 0, 0],
  [0, 0, 0, 0, 0, 0, 536870912, 0],
  [32768, 0, 0, 0, 0, 0, 0, 0],
  [16384, 0, 0, 0, 0, 0, 0, 0],
  [61440, 31744, 0, 64527, 0, 0, 0, 0],
  [0, 0, 0, 0, 0, 0, 0, 2147483648],
  [0, 0, 0, 0, 0, 0, 0, 234881024],
  [4294967295, 4294967295, 4294967295, 4294967295, 4294967295, 4294967295, 4294967295, 4294967295],
  [4294967295, 4294967295, 4294967295, 4294967295, 4294967295, 4294967295, 4294967295, 4294967295],
  [4294967295, 4294967295, 4294967295, 4294967295, 4294967295, 4294967295, 4294967295, 4294967295],
  [4294967295, 4294967295, 4294967295, 4294967295, 0, 0, 0, 0],
  [4294967295, 4294967295, 4294967295, 4294967295, 4294967295, 4294967295, 4294967295, 4294967295],
  [4294967295, 4294967295, 4294967295, 4294967295, 4294967295, 4294967295, 4294967295, 4294967295],
  [4294967295, 4294967295, 4294967295, 4294967295, 4294967295, 4294967295, 4294967295, 4294967295],
  [4294967295, 4294967295, 4294967295, 4294967295, 4294967295, 4294967295, 4294967295, 4294967295],
  [0, 0, 0, 134217726, 0, 69207040, 2147483648, 4286578687],
  [2863311530, 1437248170, 2863311701, 3567954602, 1310994729, 3864079658, 3042267712, 2854857386],
  [2863311530, 699048, 4294901760, 4294967295, 4294967295, 16383, 0, 0],
  [0, 0, 0, 0, 65536, 4294963200, 2867036159, 3123882],
  [0, 4294901760, 4294967295, 2863311530, 2863310850, 2863311530, 2863289684, 36350634],
  [43690, 0, 0, 4294967294, 255, 0, 0, 0],
  [2863311530, 2863311530, 2863311530, 2863311530, 267037354, 2863311530, 2863311530, 44739242],
  [4129023, 16711935, 16711743, 1073676543, 16711935, 1088356607, 13566172, 14418175],
  [0, 0, 0, 2147614720, 0, 0, 0, 0],
  [574464, 571506688, 960, 0, 0, 0, 0, 0],
  [16253055, 0, 0, 0, 0, 0, 0, 0],
  [0, 0, 134217726, 0, 0, 0, 0, 0],
  [0, 0, 0, 0, 0, 4194238464, 196611, 16415],
  [0, 0, 0, 67108864, 0, 0, 0, 0],
  [0, 0, 33554432, 0, 0, 0, 0, 0],
  [0, 0, 1, 0, 0, 0, 0, 96],
  [0, 0, 64, 0, 0, 0, 64, 0],
  [0, 0, 0, 0, 0, 0, 8388608, 0],
  [0, 0, 8, 0, 0, 0, 0, 0],
  [32, 138280960, 0, 0, 1610612736, 0, 0, 1879048192],
  [0, 0, 0, 65536, 3221225472, 0, 0, 0],
  [0, 0, 0, 0, 0, 134217728, 15, 0],
  [0, 0, 0, 0, 0, 0, 4294901760, 460799],
  [0, 134217726, 2046, 4294885376, 4294967295, 4294967295, 3145727, 469762048],
  [4294770688, 8191, 0, 0, 4294967295, 131135, 0, 0],
  [4294967264, 603979775, 4278255616, 3, 4294549472, 63307263, 2952790016, 196611],
  [4294543328, 57540095, 1577058304, 1835008, 4294684640, 602799615, 65536, 1],
  [4294549472, 600702463, 2952790016, 3, 3594373096, 62899992, 0, 0],
  [4294828000, 66059775, 0, 3, 4294828000, 66059775, 1073741824, 3],
  [4294828000, 67108351, 0, 3, 4236247008, 805044223, 127, 0],
  [4294967294, 917503, 63, 0, 4277151126, 537783470, 805306399, 0],
  [1, 0, 4294967039, 2047, 3840, 0, 0, 0],
  [4294967295, 1787, 4128768, 0, 0, 0, 4294901760, 33554431],
  [4294967295, 4294967295, 2214592511, 4294967295, 4294967295, 4294967047, 4294967295, 67108863],
  [4294967167, 4294967295, 1031748991, 4294967295, 4294917503, 2134736895, 4286545725, 4294934527],
  [2134736895, 4294967295, 134217599, 0, 0, 4294967295, 4294967295, 2097151],
  [4294967294, 4294967295, 4294967295, 4294967295, 4294967295, 4294967295, 4294967295, 4294967295],
  [4294967295, 4294967295, 4294967295, 4294967295, 4294967295, 4294967295, 4294967295, 4294967295],
  [4294967295, 4294967295, 4294967295, 8364031, 134217726, 4294967295, 4294967295, 2047],
  [253951, 262143, 262143, 122879, 4294967295, 1048575, 268435456, 0],
  [0, 4294967295, 4294967287, 16777215, 4294967295, 511, 0, 0],
  [0, 31457280, 0, 0, 0, 0, 0, 0],
  [64, 268435456, 4294967294, 4294967295, 2155872255, 4294967294, 4294967295, 2281701375],
  [4294967264, 4294844415, 4294967295, 4294967295, 32767, 16777215, 0, 4294901760],
  [4294967295, 4294967295, 4294967295, 4294967295, 4294967295, 4294967295, 4294967295, 4294967295],
  [4294967295, 4294967295, 4294967295, 4294967295, 4294967295, 4294967295, 4294967295, 4294967295],
  [4294967295, 4294967295, 4294967295, 4294967295, 4294967295, 4294967295, 4294967295, 4294967295],
  [4294967295, 4294967295, 4294967295, 4294967295, 4294967295, 4294967295, 4294967295, 4294967295],
  [4294967295, 4294967295, 4294967295, 4294967295, 4294967295, 4294967295, 4294967295, 4294967295],
  [4294967295, 4294967295, 4294967295, 4294967295, 4294967295, 4294967295, 4294967295, 4294967295],
  [4294967295, 4294967295, 4294967295, 4294967295, 4294967295, 4294967295, 4294967295, 4294967295],
  [4294967295, 4294967295, 4294967295, 4294967295, 4294967295, 4294967295, 4294967295, 4294967295],
  [4294967295, 4294967295, 4294967295, 4294967295, 4294967295, 4294967295, 4294967295, 4294967295],
  [4294967295, 4294967295, 4294967295, 4294967295, 4294967295, 4294967295, 4294967295, 4294967295],
  [4294967295, 4294967295, 4294967295, 4294967295, 4294967295, 4294967295, 4294967295, 4294967295],
  [4294967295, 4294967295, 4294967295, 4294967295, 4294967295, 4294967295, 4294967295, 4294967295],
  [4294967295, 4294967295, 4294967295, 4294967295, 4294967295, 4294967295, 4294967295, 4294967295],
  [4294967295, 4294967295, 4294967295, 4294967295, 4294967295, 4294967295, 4294967295, 4294967295],
  [4294967295, 4294967295, 4294967295, 4294967295, 4294967295, 4294967295, 4294967295, 4294967295],
  [4294967295, 4294967295, 4294967295, 4294967295, 4294967295, 4294967295, 4294967295, 4294967295],
  [4294967295, 4294967295, 4294967295, 4294967295, 4294967295, 4294967295, 4294967295, 4294967295],
  [4294967295, 4294967295, 4294967295, 4294967295, 4294967295, 4294967295, 4294967295, 4294967295],
  [4294967295, 4294967295, 4294967295, 4294967295, 4294967295, 4294967295, 4294967295, 4294967295],
  [4294967295, 4294967295, 4294967295, 4294967295, 4294967295, 4294967295, 4294967295, 4294967295],
  [4294967295, 4294967295, 4294967295, 4294967295, 4294967295, 4294967295, 4294967295, 4294967295],
  [4294967295, 4294967295, 4294967295, 4294967295, 4294967295, 4294967295, 4294967295, 4294967295],
  [4294967295, 4294967295, 4294967295, 4294967295, 4294967295, 4294967295, 4294967295, 4294967295],
  [4294967295, 4294967295, 4294967295, 4294967295, 4294967295, 4294967295, 4294967295, 4294967295],
  [4294967295, 4294967295, 4294967295, 4294967295, 4294967295, 4294967295, 4294967295, 4294967295],
  [4294967295, 4294967295, 4294967295, 4294967295, 4294967295, 4194303, 0, 0],
  [4294967295, 4294967295, 4294967295, 4294967295, 4294967295, 4294967295, 4294967295, 4294967295],
  [4294967295, 4294967295, 4294967295, 4294967295, 4294967295, 4294967295, 4294967295, 4294967295],
  [4294967295, 4294967295, 4294967295, 4294967295, 4294967295, 4294967295, 4294967295, 4294967295],
  [4294967295, 4294967295, 4294967295, 4294967295, 4294967295, 4294967295, 4294967295, 4294967295],
  [4294967295, 4294967295, 4294967295, 4294967295, 4294967295, 4294967295, 4294967295, 4294967295],
  [4294967295, 4294967295, 4294967295, 4294967295, 4294967295, 4294967295, 4294967295, 4294967295],
  [4294967295, 4294967295, 4294967295, 4294967295, 4294967295, 4294967295, 4294967295, 4294967295],
  [4294967295, 4294967295, 4294967295, 4294967295, 4294967295, 4294967295, 4294967295, 4294967295],
  [4294967295, 4294967295, 4294967295, 4294967295, 4294967295, 4294967295, 4294967295, 4294967295],
  [4294967295, 4294967295, 4294967295, 4294967295, 4294967295, 4294967295, 4294967295, 4294967295],
  [4294967295, 4294967295, 4294967295, 4294967295, 4294967295, 4294967295, 4294967295, 4294967295],
  [4294967295, 4294967295, 4294967295, 4294967295, 4294967295, 4294967295, 4294967295, 4294967295],
  [4294967295, 4294967295, 4294967295, 4294967295, 4294967295, 4294967295, 4294967295, 4294967295],
  [4294967295, 4294967295, 4294967295, 4294967295, 4294967295, 4294967295, 4294967295, 4294967295],
  [4294967295, 4294967295, 4294967295, 4294967295, 4294967295, 4294967295, 4294967295, 4294967295],
  [4294967295, 4294967295, 4294967295, 4294967295, 4294967295, 4294967295, 4294967295, 4294967295],
  [4294967295, 4294967295, 4294967295, 4294967295, 4294967295, 4294967295, 4294967295, 4294967295],
  [4294967295, 4294967295, 4294967295, 4294967295, 4294967295, 4294967295, 4294967295, 4294967295],
  [4294967295, 4294967295, 4294967295, 4294967295, 4294967295, 4294967295, 4294967295, 4294967295],
  [4294967295, 4294967295, 4294967295, 4294967295, 4294967295, 4294967295, 4294967295, 4294967295],
  [4294967295, 4294967295, 4294967295, 4294967295, 4294967295, 4294967295, 4294967295, 4294967295],
  [4294967295, 4294967295, 4294967295, 4294967295, 4294967295, 4294967295, 4294967295, 4294967295],
  [4294967295, 4294967295, 4294967295, 4294967295, 4294967295, 4294967295, 4294967295, 4294967295],
  [4294967295, 4294967295, 4294967295, 4294967295, 4294967295, 4294967295, 4294967295, 4294967295],
  [4294967295, 4294967295, 4294967295, 4294967295, 4294967295, 4294967295, 4294967295, 4294967295],
  [4294967295, 4294967295, 4294967295, 4294967295, 4294967295, 4294967295, 4294967295, 4294967295],
  [4294967295, 4294967295, 4294967295, 4294967295, 4294967295, 4294967295, 4294967295, 4294967295],
  [4294967295, 4294967295, 4294967295, 4294967295, 4294967295, 4294967295, 4294967295, 4294967295],
  [4294967295, 4294967295, 4294967295, 4294967295, 4294967295, 4294967295, 4294967295, 4294967295],
  [4294967295, 4294967295, 4294967295, 4294967295, 4294967295, 4294967295, 4294967295, 4294967295],
  [4294967295, 4294967295, 4294967295, 4294967295, 4294967295, 4294967295, 4294967295, 4294967295],
  [4294967295, 4294967295, 4294967295, 4294967295, 4294967295, 4294967295, 4294967295, 4294967295],
  [4294967295, 4294967295, 4294967295, 4294967295, 4294967295, 4294967295, 4294967295, 4294967295],
  [4294967295, 4294967295, 4294967295, 4294967295, 4294967295, 4294967295, 4294967295, 4294967295],
  [4294967295, 4294967295, 4294967295, 4294967295, 4294967295, 4294967295, 4294967295, 4294967295],
  [4294967295, 4294967295, 4294967295, 4294967295, 4294967295, 4294967295, 4294967295, 4294967295],
  [4294967295, 4294967295, 4294967295, 4294967295, 4294967295, 4294967295, 4294967295, 4294967295],
  [4294967295, 4294967295, 4294967295, 4294967295, 4294967295, 4294967295, 4294967295, 4294967295],
  [4294967295, 4294967295, 4294967295, 4294967295, 4294967295, 4294967295, 4294967295, 4294967295],
  [4294967295, 4294967295, 4294967295, 4294967295, 4294967295, 4294967295, 4294967295, 4294967295],
  [4294967295, 4294967295, 4294967295, 4294967295, 4294967295, 4294967295, 4294967295, 4294967295],
  [4294967295, 4294967295, 4294967295, 4294967295, 4294967295, 4294967295, 4294967295, 4294967295],
  [4294967295, 4294967295, 4294967295, 4294967295, 4294967295, 4294967295, 4294967295, 4294967295],
  [4294967295, 4294967295, 4294967295, 4294967295, 4294967295, 4294967295, 4294967295, 4294967295],
  [4294967295, 4294967295, 4294967295, 4294967295, 4294967295, 4294967295, 4294967295, 4294967295],
  [4294967295, 4294967295, 4294967295, 4294967295, 4294967295, 4294967295, 4294967295, 4294967295],
  [4294967295, 4294967295, 4294967295, 4294967295, 4294967295, 4294967295, 4294967295, 4294967295],
  [4294967295, 4294967295, 4294967295, 4294967295, 4294967295, 4294967295, 4294967295, 4294967295],
  [4294967295, 4294967295, 4294967295, 4294967295, 4294967295, 4294967295, 4294967295, 4294967295],
  [4294967295, 4294967295, 4294967295, 4294967295, 4294967295, 4294967295, 4294967295, 4294967295],
  [4294967295, 4294967295, 4294967295, 4294967295, 4294967295, 4294967295, 4294967295, 4294967295],
  [4294967295, 4294967295, 4294967295, 4294967295, 4294967295, 4294967295, 4294967295, 4294967295],
  [4294967295, 4294967295, 4294967295, 4294967295, 4294967295, 4294967295, 4294967295, 4294967295],
  [4294967295, 4294967295, 4294967295, 4294967295, 4294967295, 4294967295, 4294967295, 4294967295],
  [4294967295, 4294967295, 4294967295, 4294967295, 4294967295, 4294967295, 4294967295, 4294967295],
  [4294967295, 4294967295, 4294967295, 4294967295, 4294967295, 4294967295, 4294967295, 4294967295],
  [4294967295, 4294967295, 4294967295, 4294967295, 4294967295, 4294967295, 4294967295, 4294967295],
  [4294967295, 4294967295, 4294967295, 4294967295, 4294967295, 4294967295, 4294967295, 4294967295],
  [4294967295, 4294967295, 4294967295, 4294967295, 4294967295, 4294967295, 4294967295, 4294967295],
  [4294967295, 4294967295, 4294967295, 4294967295, 4294967295, 4294967295, 4294967295, 4294967295],
  [4294967295, 4294967295, 4294967295, 4294967295, 4294967295, 4294967295, 4294967295, 4294967295],
  [4294967295, 4294967295, 4294967295, 4294967295, 4294967295, 4294967295, 4294967295, 4294967295],
  [4294967295, 4294967295, 4294967295, 4294967295, 4294967295, 4294967295, 4294967295, 4294967295],
  [4294967295, 4294967295, 4294967295, 4294967295, 4294967295, 4294967295, 4294967295, 4294967295],
  [4294967295, 4294967295, 4294967295, 4294967295, 4294967295, 4294967295, 4294967295, 4294967295],
  [4294967295, 4294967295, 4294967295, 4294967295, 4294967295, 4294967295, 4294967295, 4294967295],
  [4294967295, 4294967295, 4294967295, 4294967295, 4294967295, 4294967295, 4294967295, 4294967295],
  [4294967295, 4294967295, 4294967295, 4294967295, 4294967295, 4294967295, 4294967295, 4294967295],
  [4294967295, 4294967295, 4294967295, 4294967295, 4294967295, 4294967295, 4294967295, 4294967295],
  [4294967295, 4294967295, 4294967295, 4294967295, 4294967295, 4294967295, 4294967295, 4294967295],
  [4294967295, 4294967295, 4294967295, 4294967295, 4294967295, 4294967295, 4294967295, 4294967295],
  [4294967295, 4294967295, 4294967295, 4294967295, 4294967295, 4294967295, 4294967295, 4294967295],
  [4294967295, 4294967295, 4294967295, 4294967295, 4294967295, 4294967295, 4294967295, 4294967295],
  [4294967295, 4294967295, 4294967295, 4294967295, 4294967295, 4294967295, 4294967295, 4294967295],
  [4294967295, 4294967295, 4294967295, 4294967295, 4294967295, 4294967295, 4294967295, 4294967295],
  [4294967295, 4294967295, 4294967295, 4294967295, 4294967295, 4294967295, 4294967295, 4294967295],
  [4294967295, 4294967295, 4294967295, 4294967295, 4294967295, 4294967295, 4294967295, 4294967295],
  [4294967295, 4294967295, 4294967295, 4294967295, 4294967295, 4294967295, 4294967295, 4294967295],
  [4294967295, 4294967295, 4294967295, 4294967295, 4294967295, 4294967295, 4294967295, 4294967295],
  [4294967295, 4294967295, 4294967295, 4294967295, 4294967295, 4294967295, 4294967295, 4294967295],
  [4294967295, 4294967295, 4294967295, 4294967295, 4294967295, 4294967295, 4294967295, 4294967295],
  [4294967295, 4294967295, 4294967295, 4294967295, 4294967295, 63, 0, 0],
  [4294967295, 4294967295, 4294967295, 4294967295, 4294967295, 4294967295, 4294967295, 4294967295],
  [4294967295, 4294967295, 4294967295, 4294967295, 4294967295, 4294967295, 4294967295, 4294967295],
  [4294967295, 4294967295, 4294967295, 4294967295, 4294967295, 4294967295, 4294967295, 4294967295],
  [4294967295, 4294967295, 4294967295, 4294967295, 4294967295, 4294967295, 4294967295, 4294967295],
  [4294967295, 4294967295, 4294967295, 4294967295, 8191, 0, 0, 0],
  [4294967295, 4294967295, 4294967295, 4294967295, 4294967295, 4294967295, 4294967295, 4294967295],
  [4294967295, 4294967295, 4294967295, 4294967295, 4294967295, 4294967295, 4294967295, 4294967295],
  [4294967295, 4294967295, 4294967295, 4294967295, 4294967295, 4294967295, 4294967295, 4294967295],
  [4294967295, 4294967295, 4294967295, 4294967295, 4294967295, 4294967295, 4294967295, 4294967295],
  [4294967295, 4294967295, 4294967295, 4294967295, 4294967295, 4294967295, 4294967295, 4294967295],
  [4294967295, 4294967295, 4294967295, 4294967295, 4294967295, 4294967295, 4294967295, 4294967295],
  [4294967295, 4294967295, 4294967295, 4294967295, 4294967295, 4294967295, 4294967295, 4294967295],
  [4294967295, 4294967295, 4294967295, 4294967295, 4294967295, 4294967295, 4294967295, 4294967295],
  [4294967295, 4294967295, 4294967295, 4294967295, 4294967295, 4294967295, 4294967295, 4294967295],
  [4294967295, 4294967295, 4294967295, 4294967295, 4294967295, 4294967295, 4294967295, 4294967295],
  [4294967295, 4294967295, 4294967295, 4294967295, 4294967295, 4294967295, 4294967295, 4294967295],
  [4294967295, 4294967295, 4294967295, 4294967295, 4294967295, 4294967295, 4294967295, 4294967295],
  [4294967295, 4294967295, 4294967295, 4294967295, 4294967295, 4294967295, 4294967295, 4294967295],
  [4294967295, 4294967295, 4294967295, 4294967295, 4294967295, 4294967295, 4294967295, 4294967295],
  [4294967295, 4294967295, 4294967295, 4294967295, 4294967295, 4294967295, 4294967295, 4294967295],
  [4294967295, 4294967295, 4294967295, 4294967295, 4294967295, 4294967295, 4294967295, 4294967295],
  [4294967295, 4294967295, 4294967295, 4294967295, 4294967295, 4294967295, 4294967295, 4294967295],
  [4294967295, 4294967295, 4294967295, 4294967295, 4294967295, 4294967295, 4294967295, 4294967295],
  [4294967295, 4294967295, 4294967295, 4294967295, 4294967295, 4294967295, 4294967295, 4294967295],
  [4294967295, 4294967295, 4294967295, 4294967295, 4294967295, 4294967295, 4294967295, 4294967295],
  [4294967295, 4294967295, 4294967295, 4294967295, 4294967295, 4294967295, 4294967295, 4294967295],
  [4294967295, 4294967295, 4294967295, 4294967295, 4294967295, 4294967295, 4294967295, 4294967295],
  [4294967295, 4294967295, 4294967295, 4294967295, 4294967295, 4294967295, 4294967295, 4294967295],
  [4294967295, 4294967295, 4294967295, 4294967295, 4294967295, 4294967295, 4294967295, 4294967295],
  [4294967295, 4294967295, 4294967295, 4294967295, 4294967295, 4294967295, 4294967295, 4294967295],
  [4294967295, 4294967295, 4294967295, 4294967295, 4294967295, 4294967295, 4294967295, 4294967295],
  [4294967295, 4294967295, 4294967295, 4294967295, 4294967295, 4294967295, 4294967295, 4294967295],
  [4294967295, 4294967295, 4294967295, 4294967295, 4294967295, 4294967295, 4294967295, 4294967295],
  [4294967295, 4294967295, 4294967295, 4294967295, 4294967295, 4294967295, 4294967295, 4294967295],
  [4294967295, 4294967295, 4294967295, 4294967295, 4294967295, 4294967295, 4294967295, 4294967295],
  [4294967295, 4294967295, 4294967295, 4294967295, 4294967295, 4294967295, 4294967295, 4294967295],
  [4294967295, 4294967295, 4294967295, 4294967295, 4294967295, 4294967295, 4294967295, 4294967295],
  [4294967295, 4294967295, 4294967295, 4294967295, 4294967295, 4294967295, 4294967295, 4294967295],
  [4294967295, 4294967295, 4294967295, 4294967295, 4294967295, 4294967295, 4294967295, 4294967295],
  [4294967295, 4294967295, 4294967295, 4294967295, 4294967295, 4294967295, 4294967295, 4294967295],
  [4294967295, 4294967295, 4294967295, 4294967295, 4294967295, 4294967295, 4294967295, 4294967295],
  [4294967295, 4294967295, 4294967295, 4294967295, 4294967295, 4294967295, 4294967295, 4294967295],
  [4294967295, 4294967295, 4294967295, 4294967295, 4294967295, 4294967295, 4294967295, 4294967295],
  [4294967295, 4294967295, 4294967295, 4294967295, 4294967295, 4294967295, 4294967295, 4294967295],
  [4294967295, 4294967295, 4294967295, 4294967295, 4294967295, 4294967295, 4294967295, 4294967295],
  [4294967295, 4294967295, 4294967295, 4294967295, 4294967295, 4294967295, 4294967295, 4294967295],
  [4294967295, 4294967295, 4294967295, 4294967295, 4294967295, 4294967295, 4294967295, 4294967295],
  [4294967295, 4294967295, 4294967295, 4294967295, 4294967295, 4294967295, 4294967295, 4294967295],
  [4294967295, 4294967295, 4294967295, 4294967295, 4294967295, 15, 0, 0],
  [4294967295, 4294967295, 4294967295, 4294967295, 4294967295, 4294967295, 4294967295, 4294967295],
  [4294967295, 4294918143, 4294967295, 2047, 0, 0, 0, 0],
  [2684354560, 1602223615, 4294967259, 4294967295, 4294967295, 262143, 4294443008, 4294967295],
  [4294967295, 4294967295, 4294967295, 4294967295, 4294967295, 4294967295, 4294967295, 4294967295],
  [4294967295, 1073741823, 4294901760, 4294967295, 4294770687, 4294967295, 255, 268369920],
  [0, 0, 0, 4292804608, 4294967295, 4294967295, 4294967295, 536870911],
  [0, 0, 0, 4294901696, 1073741823, 2147483647, 486341884, 0],
  [0, 0, 0, 0, 0, 0, 2336, 262144],
  [0, 0, 0, 0, 4278255360, 268500736, 4096, 268435456],
  [0, 0, 134217726, 0, 0, 0, 2139095039, 0],
  [1431655765, 2857719125, 1431655594, 727012693, 2983972566, 296669909, 1252697232, 1439847765],
  [1431655765, 349525, 0, 0, 0, 0, 0, 0],
  [0, 0, 0, 0, 4294891328, 4091, 1427898368, 1070421],
  [4294967295, 65535, 0, 1431655765, 1431655425, 1431655765, 1431644843, 18175317],
  [21845, 4294836224, 8388607, 0, 0, 0, 0, 0],
  [0, 0, 0, 0, 0, 4294967295, 63, 0],
  [1431655765, 1431655765, 1431655765, 1431655765, 1398101, 1431655765, 1431655765, 22369621],
  [1057029888, 4278255360, 2852142848, 65280, 0, 251658240, 251662080, 251666176],
  [1042757764, 3221962064, 32, 0, 0, 0, 0, 0],
  [0, 134217726, 0, 0, 0, 0, 0, 0],
  [8, 3221225472, 7681, 0, 12, 3221225472, 8395137, 0],
  [0, 3221225472, 1, 0, 8, 3221225472, 6657, 0],
  [12, 1073741824, 8395137, 0, 0, 3221225472, 8396230, 0],
  [14, 0, 30, 0, 12, 1073741824, 6294943, 0],
  [12, 3221225472, 8396225, 0, 12, 0, 4278419456, 786432],
  [0, 3221225472, 0, 2147483648, 0, 0, 0, 0],
  [0, 16912384, 12582912, 0, 0, 0, 0, 0],
  [0, 0, 0, 0, 0, 3228565504, 447, 0],
  [0, 0, 0, 0, 768, 0, 0, 0],
  [0, 0, 0, 0, 0, 0, 1073741824, 0],
  [0, 0, 0, 0, 0, 0, 3758096384, 29],
  [4294967295, 4294967295, 65535, 65535, 0, 0, 0, 0],
  [0, 0, 0, 0, 120, 0, 0, 0],
  [0, 0, 0, 0, 4294836224, 3154116603, 22, 0],
  [0, 0, 4192256, 65536, 0, 0, 2680160256, 15775],
  [131072, 4294901760, 2047, 0, 0, 131008, 0, 0],
  [6, 268435456, 1974782, 12, 2, 268435456, 8222, 12],
  [4, 268435456, 14726, 196608, 6, 268435456, 8638, 0],
  [2, 2415919104, 4202510, 0, 4, 0, 8193, 0],
  [0, 3221225472, 6307265, 0, 0, 2147483648, 12352, 0],
  [0, 0, 8206, 0, 0, 0, 6030336, 0],
  [0, 133300224, 32640, 0, 0, 468844544, 16128, 0],
  [50331648, 44040192, 0, 2147352576, 4278124767, 536870911, 64, 0],
  [0, 46522368, 50331648, 0, 0, 0, 0, 0],
  [1835008, 1835008, 786432, 786432, 0, 1065353216, 1048128, 0],
  [14336, 0, 0, 0, 0, 512, 0, 0],
  [0, 0, 0, 0, 0, 0, 536805376, 2018],
  [0, 64512, 0, 0, 100663296, 0, 0, 0],
  [1073741824, 0, 0, 0, 0, 0, 0, 0],
  [65535, 15, 0, 0, 0, 0, 0, 0],
  [0, 67043328, 0, 0, 0, 0, 0, 0],
  [0, 0, 0, 1023, 0, 0, 0, 67043328],
  [0, 0, 0, 65472, 0, 0, 0, 65472],
  [0, 0, 0, 65472, 0, 0, 0, 65472],
  [0, 0, 0, 65472, 0, 0, 0, 65408],
  [0, 0, 0, 65472, 0, 0, 0, 65472],
  [0, 0, 0, 65472, 0, 0, 0, 0],
  [0, 0, 67043328, 0, 0, 0, 67043328, 0],
  [0, 1023, 0, 0, 0, 0, 0, 0],
  [0, 0, 1023, 0, 0, 0, 0, 0],
  [0, 0, 0, 261632, 0, 0, 0, 0],
  [0, 0, 0, 0, 0, 0, 0, 1023],
  [67043328, 0, 0, 0, 0, 0, 0, 0],
  [67043328, 0, 0, 0, 0, 0, 0, 0],
  [0, 0, 0, 0, 0, 0, 0, 114688],
  [0, 0, 0, 4294967295, 15, 0, 0, 0],
  [128, 117441534, 0, 0, 0, 0, 0, 0],
  [0, 0, 0, 0, 0, 1913389056, 0, 0],
  [0, 0, 0, 0, 0, 0, 0, 66060288],
  [0, 0, 0, 0, 0, 0, 0, 458752],
  [0, 1047552, 0, 0, 0, 0, 0, 0],
  [0, 0, 0, 536608768, 0, 0, 0, 0],
  [0, 0, 0, 66125824, 1023, 0, 0, 0],
  [0, 0, 4294443008, 0, 0, 0, 0, 0],
  [0, 0, 0, 4294967295, 268435455, 0, 0, 2147482624],
  [0, 0, 0, 4290772992, 1048575, 0, 0, 0],
  [0, 0, 0, 0, 3932160, 0, 0, 0],
  [0, 1023, 4294836224, 0, 1023, 4294836224, 0, 0],
  [0, 0, 2147483648, 0, 0, 0, 0, 0],
  [0, 2147483648, 1, 0, 0, 0, 0, 0],
  [0, 0, 0, 0, 0, 0, 0, 134217728],
  [0, 1572864, 57344, 0, 0, 0, 0, 0],
  [0, 2147483648, 0, 32, 0, 0, 0, 0],
  [0, 8192, 0, 0, 0, 8192, 0, 0],
  [0, 0, 0, 0, 1024, 0, 0, 0],
  [64, 0, 0, 0, 0, 0, 0, 0],
  [4128768, 0, 0, 0, 0, 0, 0, 0],
  [268435456, 65536, 0, 0, 0, 1, 0, 0],
  [0, 393216, 16777216, 8, 0, 0, 0, 0],
  [8192, 0, 0, 0, 0, 0, 0, 0],
  [0, 512, 536870912, 536870912, 0, 0, 0, 0],
  [0, 671088640, 0, 0, 0, 0, 0, 0],
  [0, 0, 0, 0, 268435456, 0, 0, 0],
  [0, 0, 64, 1073741824, 16384, 0, 0, 0],
  [0, 1024, 0, 0, 0, 2097152, 0, 0],
  [0, 0, 0, 2796032, 0, 0, 0, 2688],
  [0, 0, 0, 0, 22369616, 0, 167772160, 536870912],
  [3399657984, 0, 0, 0, 0, 0, 0, 0],
  [0, 2147483648, 0, 0, 0, 0, 0, 0],
  [0, 1430257664, 1409286165, 0, 0, 0, 0, 0],
  [512, 536870912, 536870912, 9, 0, 0, 0, 0],
  [0, 0, 0, 0, 0, 134217728, 0, 0],
  [570425344, 67108864, 0, 0, 0, 0, 0, 0],
  [0, 0, 0, 0, 0, 2048, 0, 0],
  [2566914048, 33554432, 0, 0, 0, 0, 0, 0],
  [0, 2348864750, 268435457, 0, 0, 2155872258, 0, 0],
  [0, 0, 0, 1073741824, 128, 0, 0, 0],
  [0, 0, 4227858432, 0, 512, 1073741824, 9, 1572864],
  [2281705472, 0, 0, 15360, 0, 0, 1048576, 0],
  [16383, 0, 0, 0, 0, 0, 0, 0],
  [0, 0, 0, 65584, 0, 0, 0, 0],
  [0, 0, 0, 0, 0, 0, 0, 1048576],
  [0, 0, 201359360, 0, 0, 0, 0, 0],
  [524272, 0, 0, 0, 32, 0, 0, 0],
  [0, 0, 64512, 0, 0, 0, 0, 134217728],
  [0, 0, 0, 510, 0, 0, 0, 0],
  [0, 0, 0, 24576, 0, 0, 0, 14336],
  [0, 6291456, 0, 0, 0, 0, 124780544, 0],
  [1983, 0, 0, 0, 0, 0, 0, 0],
  [12582912, 2046755071, 8650638, 0, 0, 0, 0, 0],
  [0, 0, 0, 0, 0, 4194304, 0, 0],
  [14, 536870912, 0, 0, 0, 0, 0, 0],
  [0, 65536, 2163678816, 3331, 0, 0, 0, 0],
  [2348864750, 268435457, 0, 18, 0, 0, 0, 0],
  [0, 256, 134217728, 134217728, 0, 0, 0, 0],
  [0, 335544320, 0, 0, 0, 0, 0, 0],
  [0, 0, 0, 0, 134217728, 0, 0, 0],
  [1140850688, 0, 32, 536870912, 8192, 0, 0, 0],
  [0, 512, 0, 0, 0, 1048576, 0, 0],
  [0, 0, 0, 1398016, 0, 0, 0, 1344],
  [0, 0, 0, 0, 11184808, 0, 83886080, 268435456],
  [626087168, 0, 0, 0, 0, 0, 0, 0],
  [0, 1073741824, 0, 0, 0, 0, 0, 0],
  [0, 2862612480, 704643082, 0, 0, 0, 0, 0],
  [256, 134217728, 2281701376, 4, 0, 0, 0, 0],
  [0, 16, 0, 0, 0, 60, 0, 0],
  [0, 0, 0, 0, 0, 0, 0, 786432],
  [0, 2147483648, 0, 0, 0, 0, 0, 0],
  [0, 0, 0, 0, 0, 0, 134217728, 0],
  [0, 0, 0, 0, 0, 262143, 0, 0],
  [0, 0, 0, 0, 0, 0, 0, 268435456],
  [0, 0, 0, 512, 0, 0, 0, 0],
  [16, 0, 0, 0, 0, 0, 0, 99],
  [0, 0, 1073741824, 1, 0, 17858816, 0, 0],
  [0, 0, 0, 0, 0, 100663296, 4294770684, 16352],
  [0, 0, 0, 3145728, 48, 0, 0, 0],
  [0, 0, 0, 0, 0, 2684354560, 3758153731, 1610670080],
  [0, 0, 0, 0, 402653184, 0, 0, 0],
  [0, 1073741824, 1, 0, 0, 0, 0, 8],
  [0, 1879050240, 0, 1342177280, 0, 135168, 8388608, 8388608],
  [0, 0, 0, 0, 0, 0, 0, 4194304],
  [0, 0, 262160, 469762048, 7168, 0, 0, 0],
  [0, 0, 2079, 0, 203358208, 16457, 1359872, 4293918720],
  [4294967295, 4294967295, 4294967295, 4294967295, 4294967295, 4294967295, 4294967295, 4294967295],
  [3840, 3, 0, 268435456, 4160749568, 1048575, 0, 0],
  [0, 0, 0, 0, 0, 8388608, 2, 4278190080],
  [0, 0, 0, 32768, 0, 0, 0, 0],
  [0, 0, 0, 0, 0, 0, 4294901760, 4294901823],
  [4294967295, 4294967295, 4294967295, 4294967295, 4261412871, 4294967295, 4043309055, 3489660927],
  [4294967295, 4294967295, 4294967295, 4294967295, 4294967295, 4294967295, 4294967295, 4294967295],
  [0, 512, 0, 0, 0, 0, 0, 0],
  [0, 0, 0, 116, 0, 0, 0, 0],
  [1879050240, 0, 1342177280, 0, 0, 0, 0, 7684],
  [0, 0, 0, 0, 0, 4276928, 0, 0],
  [0, 0, 0, 0, 4, 0, 0, 0],
  [0, 0, 0, 0, 0, 0, 0, 1610613248],
  [0, 0, 0, 0, 0, 0, 0, 67108864],
  [0, 0, 0, 65536, 0, 0, 0, 0],
  [4244111374, 22020096, 0, 0, 0, 3221225472, 40895, 0],
  [3251635067, 67388079, 1024, 0, 4091543552, 4294950838, 4293607423, 1048575],
  [4294963455, 4294965756, 4294967295, 4026531839, 134217727, 4286578688, 32767, 0],
  [4294967295, 127, 2047, 0, 4026531840, 4294967295, 4294967295, 1023],
  [4294967295, 4294967295, 4294967295, 4294967295, 4294967295, 4286578687, 4294967293, 16777215],
  [4275044351, 4294967295, 4294967295, 1073709055, 1023, 0, 0, 0],
  [4294964190, 4294967039, 2135404543, 254, 4279238656, 2147418111, 0, 0],
  [4294967295, 4294967295, 4294967295, 4294967295, 4294967295, 4294967295, 4294967295, 4294967295],
  [0, 0, 0, 0, 4227858431, 4294967295, 4294967295, 1048575],
  [4294967295, 4294967295, 4294967295, 4294967295, 4294967295, 4294967295, 4194303, 268369920],
  [786448, 3233808385, 0, 0, 0, 0, 0, 0],
  [0, 0, 0, 0, 4290969600, 0, 0, 0],
  [536870911, 4294966272, 15, 2415919103, 4294966272, 131071, 4294905855, 2147483647],
  [4294967295, 4294967295, 4294967295, 4169138175, 4294967295, 4294967295, 1073741823, 2147483647],
  [0, 0, 0, 0, 4294901760, 4294967295, 127, 0],
  [0, 0, 0, 0, 0, 0, 0, 805331216],
  [0, 256, 0, 0, 0, 0, 0, 0],
  [0, 512, 0, 0, 0, 0, 0, 0],
  [0, 1, 0, 0, 0, 1, 0, 0],
  [0, 0, 0, 0, 1, 0, 0, 0],
  [4095, 32768, 2147483648, 0, 0, 0, 0, 0],
  [1, 0, 0, 0, 0, 0, 0, 0]]

end Verif.Chars
