import Verif.Model.LibraryMore

/-!
# Stress recovery points

The points C, D, E, F that the functions of nastran_sections.py store in `Geometry.recovery_points` (geometry.py
1278-1311), in this order.
-/

namespace SP

/-- nastran_sections.py 53-57 (`nastran_bar`), 122-129 (`nastran_box`), 200-207 (`nastran_box1`), 269-274
(`nastran_chan`), 662-669 (`nastran_dbox`), 750-757 (`nastran_gbox`). -/
noncomputable def recoveryRect (d1 d2 : ℝ) : List Pt :=
  [(1 / 2 * d1, 1 / 2 * d2), (1 / 2 * d1, -1 / 2 * d2), (-1 / 2 * d1, -1 / 2 * d2), (-1 / 2 * d1, 1 / 2 * d2)]

/-- nastran_sections.py 334-338. -/
noncomputable def recoveryChan1 (d1 d2 d4 : ℝ) : List Pt :=
  [(1 / 2 * d2 + d1, 1 / 2 * d4), (1 / 2 * d2 + d1, -1 / 2 * d4), (-1 / 2 * d2, -1 / 2 * d4), (-1 / 2 * d2, 1 / 2 * d4)]

/-- nastran_sections.py 397-401. -/
noncomputable def recoveryChan2 (d2 d3 d4 : ℝ) : List Pt :=
  [(1 / 2 * d4, d3 - 1 / 2 * d2), (1 / 2 * d4, -1 / 2 * d2), (-1 / 2 * d4, -1 / 2 * d2), (-1 / 2 * d4, d3 - 1 / 2 * d2)]

/-- nastran_sections.py 465-469. -/
noncomputable def recoveryCross (d1 d2 d3 : ℝ) : List Pt :=
  [(0, 1 / 2 * d3), (1 / 2 * (d1 + d2), 0), (0, -1 / 2 * d3), (-1 / 2 * (d1 + d2), 0)]

/-- nastran_sections.py 565-569. -/
noncomputable def recoveryFcross (d1 d2 : ℝ) : List Pt :=
  [(0, 1 / 2 * d1), (1 / 2 * d2, 0), (0, -1 / 2 * d1), (-1 / 2 * d2, 0)]

/-- nastran_sections.py 828-832. -/
noncomputable def recoveryH (d1 d2 d3 : ℝ) : List Pt :=
  [(1 / 2 * (d1 + d2), 1 / 2 * d3), (1 / 2 * (d1 + d2), -1 / 2 * d3), (-1 / 2 * (d1 + d2), -1 / 2 * d3),
   (-1 / 2 * (d1 + d2), 1 / 2 * d3)]

/-- nastran_sections.py 895-899. -/
noncomputable def recoveryHat (d1 d2 d3 d4 : ℝ) : List Pt :=
  [(1 / 2 * d3, 1 / 2 * d2), (1 / 2 * d3 + d4, -d1 + d2), (-1 / 2 * d3 - d4, -d1 + d2), (-1 / 2 * d3, 1 / 2 * d2)]

/-- nastran_sections.py 1028-1032. -/
noncomputable def recoveryHexa (d2 d3 : ℝ) : List Pt :=
  [(0, 1 / 2 * d3), (0, -1 / 2 * d3), (1 / 2 * d2, 0), (-1 / 2 * d2, 0)]

/-- nastran_sections.py 1101-1105. -/
noncomputable def recoveryI (d1 d3 : ℝ) : List Pt :=
  [(1 / 2 * d3, 1 / 2 * d1), (1 / 2 * d3, -1 / 2 * d1), (-1 / 2 * d3, -1 / 2 * d1), (-1 / 2 * d3, 1 / 2 * d1)]

/-- nastran_sections.py 1169-1173. -/
noncomputable def recoveryI1 (d1 d2 d4 : ℝ) : List Pt :=
  [(1 / 2 * (d1 + d2), 1 / 2 * d4), (1 / 2 * (d1 + d2), -1 / 2 * d4), (-1 / 2 * (d1 + d2), -1 / 2 * d4),
   (-1 / 2 * (d1 + d2), 1 / 2 * d4)]

/-- nastran_sections.py 1230-1234. -/
noncomputable def recoveryL (d1 d2 d3 d4 : ℝ) : List Pt :=
  [(1 / 2 * d4, d2 - 1 / 2 * d3), (d1 - 1 / 2 * d4, -1 / 2 * d3), (-1 / 2 * d4, -1 / 2 * d3), (-1 / 2 * d4, d2 - 1 / 2 * d3)]

/-- nastran_sections.py 1287-1291 (`nastran_rod`), 1564-1568 (`nastran_tube`), 1636-1640 (`nastran_tube2`). -/
noncomputable def recoveryRod (d1 : ℝ) : List Pt := [(0, d1), (d1, 0), (0, -d1), (-d1, 0)]

/-- nastran_sections.py 1365-1369. -/
noncomputable def recoveryTee (d1 d2 d3 : ℝ) : List Pt :=
  [(0, 1 / 2 * d3), (1 / 2 * d1, 1 / 2 * d3), (0, 1 / 2 * d3 - d2), (-1 / 2 * d1, 1 / 2 * d3)]

/-- nastran_sections.py 1429-1433. -/
noncomputable def recoveryTee1 (d1 d2 d3 : ℝ) : List Pt :=
  [(1 / 2 * d3, 0), (1 / 2 * d3, -1 / 2 * d1), (-1 / 2 * d3 - d2, 0), (1 / 2 * d3, 1 / 2 * d1)]

/-- nastran_sections.py 1493-1497. -/
noncomputable def recoveryTee2 (d1 d2 d3 d4 : ℝ) : List Pt :=
  [(1 / 2 * d4, d2 - 1 / 2 * d3), (1 / 2 * d1, -1 / 2 * d3), (-1 / 2 * d1, -1 / 2 * d3), (-1 / 2 * d4, d2 - 1 / 2 * d3)]

/-- nastran_sections.py 1700-1705. -/
noncomputable def recoveryZed (d1 d2 d4 : ℝ) : List Pt :=
  [(1 / 2 * d2, 1 / 2 * d4), (1 / 2 * d2 + d1, -1 / 2 * d4), (-1 / 2 * d2, -1 / 2 * d4), (-1 / 2 * d2 - d1, 1 / 2 * d4)]

end SP
