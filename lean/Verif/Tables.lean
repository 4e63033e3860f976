import Verif.Word
/-!
# Control store and sequencer table

The literals of `components/cu/rom.c:40-89` (with `X` = 0, `rom.c:20`) and of
`components/cu/seq.c:25-126` (with `X` = -1, `seq.c:23`; `Sn` = n, `states.h`).
-/
namespace Mpp

local notation "I" => true
local notation "O" => false
local notation "X" => (-1 : Int)

/-- `rom.c:40-89`: 45 rows of 31 signals, most significant control bit first. -/
def ROM : List (List Bool) := [
  [O, O, O, O, O, O, O, I, O, I, O, I, O, O, O, O, O, I, I, O, O, O, O, O, O, O, O, O, O, O, O],
  [O, O, O, O, O, O, O, O, O, I, O, O, O, O, O, O, O, O, O, O, O, O, O, O, O, O, O, O, O, O, O],
  [O, O, O, O, O, O, O, O, O, I, I, O, O, O, O, O, O, O, O, O, O, I, O, O, O, O, O, O, O, O, O],
  [I, I, O, O, I, O, O, O, O, I, O, O, O, O, I, O, O, O, O, I, O, O, O, O, O, O, O, O, O, O, O],
  [I, I, O, O, O, O, O, O, O, I, O, O, O, O, I, O, O, O, O, O, I, O, O, O, O, O, O, O, O, O, O],
  [O, O, O, O, O, O, O, O, O, I, O, O, O, O, I, O, O, O, O, O, I, O, I, I, O, O, O, O, O, O, O],
  [O, O, I, O, O, O, O, O, O, I, O, O, O, O, I, O, O, O, O, O, I, O, I, I, O, O, O, O, O, O, O],
  [O, O, I, O, O, O, O, O, O, I, O, O, O, O, O, O, O, O, O, O, O, O, I, I, O, O, O, O, O, O, O],
  [I, I, I, O, O, O, O, O, O, I, O, O, O, O, I, O, O, O, O, I, O, O, I, I, O, O, O, O, O, O, O],
  [O, I, O, O, O, O, O, O, O, I, O, O, O, O, I, O, O, O, O, O, I, O, I, I, O, O, O, O, O, O, O],
  [O, I, I, O, O, O, O, O, O, I, O, O, O, O, I, O, O, O, O, O, I, O, I, I, O, O, O, O, O, O, O],
  [I, O, O, O, O, O, O, O, O, I, O, O, O, O, I, O, O, O, O, O, I, O, I, I, O, O, O, O, O, O, O],
  [O, O, O, O, O, O, O, O, O, I, O, O, O, I, O, O, O, O, O, O, O, I, O, O, O, O, O, O, O, O, O],
  [I, I, I, O, O, O, O, O, O, I, O, O, O, O, I, O, O, O, O, O, I, O, I, I, O, O, O, O, O, O, O],
  [I, O, I, O, O, O, O, O, O, I, O, O, O, O, I, O, O, O, O, O, I, O, I, I, O, O, O, O, O, O, O],
  [O, O, O, O, O, O, O, I, O, I, O, I, O, O, O, O, O, O, I, O, O, I, O, O, O, O, O, O, O, O, O],
  [O, O, O, O, O, O, O, I, O, I, O, I, O, O, O, O, O, O, I, O, O, O, O, O, I, O, O, O, O, O, O],
  [O, O, O, O, O, O, O, I, O, I, O, I, O, O, O, O, O, O, I, O, O, O, O, O, O, I, O, O, O, O, O],
  [O, O, O, O, O, I, O, O, O, I, O, I, O, O, O, O, O, O, O, O, O, I, O, O, O, O, O, O, O, O, O],
  [I, I, O, O, O, I, O, O, O, O, O, O, O, O, I, O, O, O, O, O, O, O, O, O, O, O, O, O, O, O, O],
  [O, O, O, O, O, I, O, O, O, I, O, O, O, O, O, O, O, O, I, O, O, O, O, O, O, O, O, O, O, O, O],
  [O, O, O, I, O, O, O, O, O, I, I, O, O, O, O, O, O, O, O, O, O, O, O, O, I, O, O, O, O, O, O],
  [O, O, O, I, I, O, O, O, O, I, I, O, O, O, O, O, O, O, O, O, O, O, O, O, O, I, O, O, O, O, O],
  [O, O, O, O, O, O, O, O, O, I, O, O, I, O, O, O, O, O, O, O, I, O, O, O, O, O, O, O, O, O, O],
  [O, O, O, O, O, O, O, O, O, I, O, O, O, I, O, O, O, O, O, O, O, O, O, I, O, O, O, O, O, O, O],
  [O, O, O, O, O, O, O, O, O, I, O, O, O, O, O, O, O, O, O, O, O, O, O, O, O, O, O, O, O, I, O],
  [O, O, O, O, O, O, I, I, I, I, O, O, O, O, O, O, O, O, O, O, O, O, O, O, O, O, O, O, I, O, O],
  [O, O, O, O, O, O, I, O, O, O, O, O, I, O, O, O, O, O, O, O, O, O, O, O, O, O, O, O, O, O, O],
  [O, O, O, O, O, O, I, O, O, O, O, O, O, O, O, I, O, O, O, O, O, O, O, O, O, O, O, O, O, O, O],
  [O, O, O, O, O, O, I, O, O, O, O, O, O, O, O, O, I, O, O, O, O, O, O, O, O, O, O, O, O, O, O],
  [O, O, O, O, O, I, I, O, O, I, O, O, O, O, O, O, O, O, I, O, O, O, O, O, O, O, O, O, O, O, O],
  [O, O, O, O, O, O, I, I, O, I, O, O, O, O, O, O, O, O, O, O, O, O, O, O, O, O, O, O, I, O, O],
  [O, O, O, O, O, O, I, O, O, I, O, I, O, O, O, O, O, O, O, O, O, O, O, O, O, O, O, I, O, O, O],
  [O, O, O, O, O, O, I, O, O, I, O, I, O, O, O, O, O, O, O, O, O, O, O, O, O, O, I, O, O, O, O],
  [O, O, O, O, O, O, I, O, O, I, O, I, O, O, O, O, O, O, O, O, O, O, O, I, O, O, O, O, O, O, O],
  [O, O, O, O, O, O, O, O, O, I, O, O, O, O, O, O, O, O, O, O, O, O, O, O, O, O, O, O, O, O, I],
  [O, O, O, O, O, O, I, O, O, O, O, O, O, I, O, O, O, O, O, O, O, O, O, O, O, O, O, O, O, O, O],
  [O, O, O, O, O, O, I, O, O, I, O, I, O, O, O, O, O, O, O, O, I, O, O, O, O, O, O, O, O, O, O],
  [O, O, O, O, O, I, O, O, O, I, O, O, O, O, O, O, O, O, O, O, O, O, O, O, O, O, O, O, I, O, O],
  [I, I, O, O, O, O, O, O, O, I, O, O, O, O, I, O, O, O, O, I, O, O, O, O, O, O, O, O, O, O, O],
  [O, O, O, O, O, O, I, I, I, I, O, O, O, O, O, O, O, O, O, O, O, O, O, O, O, O, O, O, I, O, O],
  [O, O, O, O, O, O, I, I, O, I, O, O, O, O, O, O, O, O, O, O, O, O, O, O, O, O, O, O, I, O, O],
  [O, O, O, O, O, O, I, I, I, I, O, O, O, O, O, O, O, O, O, O, O, O, O, O, O, O, O, O, I, O, O],
  [O, O, O, O, O, O, I, I, O, I, O, O, O, O, O, O, O, O, O, O, O, O, O, O, O, O, O, O, I, O, O],
  [I, I, O, O, O, O, O, O, O, I, O, O, O, O, I, O, O, O, O, I, O, O, O, O, O, O, O, O, O, O, O]
]

/-- `seq.c:25-126`: 100 rows of 24 columns. -/
def truthTable : List (List Int) := [
  [0, 0, 0, 0, 0, 0, 0, X, X, X, X, X, X, X, X, X, X, 0, 0, 0, 0, 0, 1, 1],
  [1, 0, 0, 0, 0, 0, 1, 0, 0, X, X, X, X, X, X, X, X, 0, 0, 0, 0, 1, 0, 2],
  [1, 0, 0, 0, 0, 0, 1, 0, 1, 0, 0, X, X, X, X, X, X, 0, 0, 1, 1, 0, 0, 12],
  [1, 0, 0, 0, 0, 0, 1, 0, 1, 1, 0, X, X, X, X, X, X, 0, 0, 1, 1, 1, 1, 15],
  [1, 0, 0, 0, 0, 0, 1, 1, 0, X, 1, X, X, X, X, X, X, 0, 1, 0, 1, 0, 1, 21],
  [1, 0, 0, 0, 0, 0, 1, 0, 1, 1, 1, 0, 0, X, X, X, X, 0, 1, 0, 0, 0, 0, 16],
  [1, 0, 0, 0, 0, 0, 1, 1, 1, 0, 0, 0, 0, 1, 1, X, X, 0, 1, 0, 0, 0, 0, 16],
  [1, 0, 0, 0, 0, 0, 1, 1, 1, 0, 0, 0, 1, 0, 0, X, X, 0, 1, 0, 0, 0, 0, 16],
  [1, 0, 0, 0, 0, 0, 1, 0, 1, 1, 1, 0, 1, 0, 0, X, X, 0, 1, 0, 0, 0, 0, 16],
  [1, 0, 0, 0, 0, 0, 1, 1, 0, 0, 0, 0, 0, 0, 0, X, X, 0, 0, 1, 1, 1, 0, 14],
  [1, 0, 0, 0, 0, 0, 1, 1, 0, 0, 0, 0, 0, 0, 1, X, X, 0, 1, 0, 1, 1, 1, 23],
  [1, 0, 0, 0, 0, 0, 1, 1, 0, 0, 0, 0, 0, 1, 0, X, X, 0, 1, 1, 0, 0, 0, 24],
  [1, 0, 0, 0, 0, 0, 1, 1, 1, 0, 0, 0, 0, 0, 1, X, X, 0, 1, 1, 0, 1, 0, 26],
  [1, 0, 0, 0, 0, 0, 1, 1, 1, 0, 0, 0, 1, 0, 1, X, X, 1, 0, 0, 0, 0, 0, 32],
  [1, 0, 0, 0, 0, 0, 1, 1, 1, 0, 0, 0, 0, 0, 0, X, X, 1, 0, 0, 0, 0, 0, 32],
  [1, 0, 0, 0, 0, 0, 1, 1, 1, 0, 0, 0, 0, 1, 0, X, X, 1, 0, 0, 1, 0, 1, 37],
  [2, 0, 0, 0, 0, 1, 0, X, X, 0, 0, X, X, X, X, X, X, 0, 0, 0, 0, 1, 1, 3],
  [2, 0, 0, 0, 0, 1, 0, X, X, 0, 1, 0, 0, X, X, X, X, 0, 0, 0, 1, 0, 0, 4],
  [2, 0, 0, 0, 0, 1, 0, X, X, 0, 1, 1, 0, X, X, X, X, 0, 0, 0, 1, 1, 0, 6],
  [2, 0, 0, 0, 0, 1, 0, X, X, 0, 1, 1, 1, X, X, X, X, 0, 0, 0, 1, 1, 1, 7],
  [2, 0, 0, 0, 0, 1, 0, X, X, 1, 0, 0, 0, X, X, X, X, 0, 0, 1, 0, 0, 1, 9],
  [2, 0, 0, 0, 0, 1, 0, X, X, 1, 0, 0, 1, X, X, X, X, 0, 0, 1, 0, 1, 0, 10],
  [2, 0, 0, 0, 0, 1, 0, X, X, 1, 0, 1, 0, X, X, X, X, 0, 0, 1, 0, 1, 1, 11],
  [2, 0, 0, 0, 0, 1, 0, X, X, 1, 0, 1, 1, X, X, X, X, 0, 0, 1, 0, 0, 0, 8],
  [2, 0, 0, 0, 0, 1, 0, X, X, 1, 1, X, X, X, X, X, X, 0, 0, 0, 1, 0, 1, 5],
  [3, 0, 0, 0, 0, 1, 1, X, X, X, X, X, X, X, X, X, X, 0, 0, 0, 0, 0, 0, 0],
  [4, 0, 0, 0, 1, 0, 0, X, X, X, X, X, X, X, X, X, X, 0, 0, 0, 0, 0, 0, 0],
  [5, 0, 0, 0, 1, 0, 1, X, X, X, X, X, X, X, X, X, X, 0, 0, 0, 0, 0, 0, 0],
  [6, 0, 0, 0, 1, 1, 0, X, X, X, X, X, X, X, X, X, X, 0, 0, 0, 0, 0, 0, 0],
  [7, 0, 0, 0, 1, 1, 1, X, X, X, X, X, X, X, X, X, X, 0, 0, 0, 0, 0, 0, 0],
  [8, 0, 0, 1, 0, 0, 0, X, X, X, X, X, X, X, X, X, X, 0, 0, 0, 0, 0, 0, 0],
  [9, 0, 0, 1, 0, 0, 1, X, X, X, X, X, X, X, X, X, X, 0, 0, 0, 0, 0, 0, 0],
  [10, 0, 0, 1, 0, 1, 0, X, X, X, X, X, X, X, X, X, X, 0, 0, 0, 0, 0, 0, 0],
  [11, 0, 0, 1, 0, 1, 1, X, X, X, X, X, X, X, X, X, X, 0, 0, 0, 0, 0, 0, 0],
  [12, 0, 0, 1, 1, 0, 0, X, X, X, 0, 0, 0, X, X, X, X, 1, 0, 1, 1, 0, 0, 44],
  [12, 0, 0, 1, 1, 0, 0, X, X, X, 0, 0, 1, 0, 0, X, X, 0, 0, 0, 1, 0, 0, 4],
  [12, 0, 0, 1, 1, 0, 0, X, X, X, 0, 0, 1, 0, 1, X, X, 0, 0, 0, 1, 0, 1, 5],
  [12, 0, 0, 1, 1, 0, 0, X, X, X, 0, 0, 1, 1, 0, X, X, 0, 0, 0, 1, 1, 0, 6],
  [12, 0, 0, 1, 1, 0, 0, X, X, X, 0, 0, 1, 1, 1, X, X, 0, 0, 0, 1, 1, 1, 7],
  [12, 0, 0, 1, 1, 0, 0, X, X, X, 0, 1, X, 0, 0, X, X, 0, 0, 1, 0, 0, 1, 9],
  [12, 0, 0, 1, 1, 0, 0, X, X, X, 0, 1, X, 0, 1, X, X, 0, 0, 1, 0, 1, 0, 10],
  [12, 0, 0, 1, 1, 0, 0, X, X, X, 0, 1, X, 1, 0, X, X, 0, 0, 1, 0, 1, 1, 11],
  [12, 0, 0, 1, 1, 0, 0, X, X, X, 0, 1, X, 1, 1, X, X, 0, 0, 1, 1, 0, 1, 13],
  [12, 0, 0, 1, 1, 0, 0, X, X, X, 1, X, X, X, X, X, X, 0, 1, 0, 0, 1, 1, 19],
  [13, 0, 0, 1, 1, 0, 1, X, X, X, X, X, X, X, X, X, X, 0, 0, 0, 0, 0, 0, 0],
  [14, 0, 0, 1, 1, 1, 0, X, X, X, X, X, X, X, X, X, X, 0, 0, 0, 0, 0, 0, 0],
  [15, 0, 0, 1, 1, 1, 1, 0, 1, 1, 0, 0, 0, X, X, X, X, 1, 0, 0, 1, 1, 1, 39],
  [15, 0, 0, 1, 1, 1, 1, X, X, X, X, 0, 1, 0, 0, X, X, 0, 0, 0, 1, 0, 0, 4],
  [15, 0, 0, 1, 1, 1, 1, X, X, X, X, 0, 1, 0, 1, X, X, 0, 0, 0, 1, 0, 1, 5],
  [15, 0, 0, 1, 1, 1, 1, X, X, X, X, 0, 1, 1, 0, X, X, 0, 0, 0, 1, 1, 0, 6],
  [15, 0, 0, 1, 1, 1, 1, X, X, X, X, 0, 1, 1, 1, X, X, 0, 0, 0, 1, 1, 1, 7],
  [15, 0, 0, 1, 1, 1, 1, X, X, X, X, 1, X, 0, 0, X, X, 0, 0, 1, 0, 0, 1, 9],
  [15, 0, 0, 1, 1, 1, 1, X, X, X, X, 1, X, 0, 1, X, X, 0, 0, 1, 0, 1, 0, 10],
  [15, 0, 0, 1, 1, 1, 1, X, X, X, X, 1, X, 1, 0, X, X, 0, 0, 1, 0, 1, 1, 11],
  [16, 0, 1, 0, 0, 0, 0, X, X, X, X, X, X, X, X, X, X, 0, 1, 0, 0, 0, 1, 17],
  [17, 0, 1, 0, 0, 0, 1, X, X, X, X, X, 0, 0, 0, X, X, 0, 1, 0, 0, 1, 0, 18],
  [17, 0, 1, 0, 0, 0, 1, X, X, X, X, X, 0, 0, 1, X, X, 0, 0, 1, 1, 0, 0, 12],
  [17, 0, 1, 0, 0, 0, 1, 0, 1, 1, 1, 0, 0, 1, 0, 1, X, 0, 1, 0, 1, 0, 0, 20],
  [17, 0, 1, 0, 0, 0, 1, 0, 1, 1, 1, 0, 0, 1, 1, X, 1, 0, 1, 0, 1, 0, 0, 20],
  [17, 0, 1, 0, 0, 0, 1, 0, 1, 1, 1, 0, 1, 0, 0, X, X, 0, 1, 0, 1, 0, 0, 20],
  [17, 0, 1, 0, 0, 0, 1, 1, 1, 0, 0, 0, 0, 1, 1, X, X, 1, 0, 0, 1, 1, 0, 38],
  [17, 0, 1, 0, 0, 0, 1, 1, 1, 0, 0, 0, 1, 0, 0, X, X, 0, 1, 1, 0, 1, 0, 26],
  [17, 0, 1, 0, 0, 0, 1, X, X, X, X, X, 0, 1, 0, 0, X, 0, 0, 0, 0, 0, 0, 0],
  [17, 0, 1, 0, 0, 0, 1, X, X, X, X, X, 0, 1, 1, X, 0, 0, 0, 0, 0, 0, 0, 0],
  [18, 0, 1, 0, 0, 1, 0, X, X, X, X, X, X, X, X, X, X, 0, 0, 0, 1, 0, 0, 4],
  [19, 0, 1, 0, 0, 1, 1, X, X, X, X, X, X, X, X, X, X, 0, 0, 0, 0, 0, 0, 0],
  [20, 0, 1, 0, 1, 0, 0, X, X, X, X, X, X, X, X, X, X, 0, 0, 0, 0, 0, 0, 0],
  [21, 0, 1, 0, 1, 0, 1, X, X, X, X, X, X, X, X, X, X, 0, 1, 0, 1, 1, 0, 22],
  [21, 0, 1, 0, 1, 1, 0, X, X, 0, X, X, X, X, X, X, X, 0, 0, 1, 1, 0, 0, 12],
  [22, 0, 1, 0, 1, 1, 0, X, X, 1, X, X, X, X, X, X, X, 0, 1, 0, 0, 1, 0, 18],
  [23, 0, 1, 0, 1, 1, 1, X, X, X, X, X, X, X, X, X, X, 0, 0, 0, 0, 0, 0, 0],
  [24, 0, 1, 1, 0, 0, 0, X, X, X, X, X, X, X, X, X, X, 0, 0, 0, 0, 0, 0, 0],
  [25, 0, 1, 1, 0, 0, 1, 1, 1, 0, 0, 0, 1, 1, 0, X, X, 0, 1, 1, 0, 1, 0, 26],
  [26, 0, 1, 1, 0, 1, 0, 1, 1, 0, 0, 0, 0, 0, 1, X, X, 1, 0, 0, 1, 0, 0, 36],
  [26, 0, 1, 1, 0, 1, 0, 1, 1, 0, 0, 0, 1, 0, 0, X, X, 0, 1, 1, 1, 0, 0, 28],
  [26, 0, 1, 1, 0, 1, 0, 1, 1, 0, 0, 0, 1, 1, 0, X, X, 0, 1, 1, 1, 0, 1, 27],
  [27, 0, 1, 1, 1, 0, 1, 1, 1, 0, 0, 0, 1, 1, 0, X, X, 1, 0, 1, 0, 0, 0, 40],
  [28, 0, 1, 1, 1, 0, 0, 1, 1, 0, 0, 0, 1, 0, 0, X, X, 1, 0, 1, 0, 0, 0, 40],
  [28, 0, 1, 1, 1, 0, 0, 1, 1, 0, 0, 0, 1, 1, 0, X, X, 1, 0, 1, 0, 1, 0, 42],
  [29, 0, 1, 1, 1, 0, 1, 1, 1, 0, 0, 0, 1, 0, 0, X, X, 0, 1, 0, 1, 0, 0, 20],
  [29, 0, 1, 1, 1, 0, 1, 1, 1, 0, 0, 0, 1, 1, 0, X, X, 0, 1, 1, 1, 1, 0, 30],
  [30, 0, 1, 1, 1, 1, 0, 1, 1, 0, 0, 0, 1, 1, 0, X, X, 0, 0, 0, 0, 0, 0, 0],
  [31, 0, 1, 1, 1, 1, 1, 1, 1, 0, 0, 0, 1, 0, 1, X, X, 1, 0, 0, 0, 0, 1, 33],
  [31, 0, 1, 1, 1, 1, 1, 1, 1, 0, 0, 0, 0, 0, 0, X, X, 1, 0, 0, 0, 0, 1, 33],
  [32, 1, 0, 0, 0, 0, 0, 1, 1, 0, 0, 0, 1, 0, 1, X, X, 0, 1, 1, 1, 1, 1, 31],
  [32, 1, 0, 0, 0, 0, 0, 1, 1, 0, 0, 0, 0, 0, 0, X, X, 0, 1, 1, 1, 1, 1, 31],
  [33, 1, 0, 0, 0, 0, 1, 1, 1, 0, 0, 0, 1, 0, 1, X, X, 1, 0, 1, 0, 0, 1, 41],
  [33, 1, 0, 0, 0, 0, 1, 1, 1, 0, 0, 0, 0, 0, 0, X, X, 1, 0, 1, 0, 0, 1, 41],
  [34, 1, 0, 0, 0, 1, 0, 1, 1, 0, 0, 0, 0, 0, 0, X, X, 1, 0, 1, 0, 1, 1, 43],
  [35, 1, 0, 0, 0, 1, 1, 1, 1, 0, 0, 0, 0, 0, 0, X, X, 0, 0, 0, 0, 0, 0, 0],
  [36, 1, 0, 0, 1, 0, 0, 1, 1, 0, 0, 0, 0, 0, 1, X, X, 0, 0, 0, 0, 0, 0, 0],
  [37, 1, 0, 0, 1, 0, 1, 1, 1, 0, 0, 0, 0, 1, 0, X, X, 0, 1, 1, 1, 1, 1, 31],
  [38, 1, 0, 0, 1, 1, 0, 1, 1, 0, 0, 0, 0, 1, 1, X, X, 0, 0, 0, 0, 0, 0, 0],
  [40, 1, 0, 1, 0, 0, 0, 1, 1, 0, 0, 0, 1, 0, 0, X, X, 0, 1, 1, 1, 0, 1, 29],
  [40, 1, 0, 1, 0, 0, 0, 1, 1, 0, 0, 0, 1, 1, 0, X, X, 0, 1, 1, 1, 0, 0, 28],
  [41, 1, 0, 1, 0, 0, 1, 1, 1, 0, 0, 0, 1, 0, 1, X, X, 0, 0, 0, 0, 0, 0, 0],
  [41, 1, 0, 1, 0, 0, 1, 1, 1, 0, 0, 0, 0, 0, 0, X, X, 1, 0, 0, 0, 1, 0, 34],
  [42, 1, 0, 1, 0, 1, 0, 1, 1, 0, 0, 0, 1, 1, 0, X, X, 0, 1, 1, 1, 0, 1, 29],
  [43, 1, 0, 1, 0, 1, 1, 1, 1, 0, 0, 0, 0, 0, 0, X, X, 1, 0, 0, 0, 1, 1, 35],
  [44, 1, 0, 1, 1, 0, 0, X, X, X, 0, 0, 0, X, X, X, X, 0, 0, 0, 0, 0, 0, 0]
]

end Mpp
