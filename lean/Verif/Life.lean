import Verif.Overlap
/-!
# Game of life of the examples

What examples/game_of_life.cpp and examples/simple_game_of_life.cpp calculate in the loops of `Overlap` and of C115. The data of a cell is its
`is_alive`, an unsigned integer without a bound here; `live_neighbor_count` is what a process keeps for its cells between the two loops.
-/
namespace Dccrg

/-- `get_live_neighbor_counts` for one cell (examples/game_of_life.cpp:58-63, the same in examples/simple_game_of_life.cpp:102-110 and examples/game_of_life_with_output.cpp:58-66): neighbors
whose `is_alive` is larger than zero. The cell itself isn't looked at. -/
def liveCount (_ : Nat) (l : List ((Nat × V3 Int) × Option Nat)) : Nat := l.countP fun x => decide (0 < x.2.getD 0)

/-- `apply_rules` for one cell (examples/game_of_life.cpp:73-77, the same in examples/simple_game_of_life.cpp:115-119 and examples/game_of_life_with_output.cpp:76-82), `d` is `is_alive` and `k`
is `live_neighbor_count`. -/
def lifeRule (_ d k : Nat) : Nat := if k = 3 then 1 else if k ≠ 2 then 0 else d

/-- What `initialize_game` gives to `is_alive` of a cell (examples/game_of_life.cpp:38-48, examples/simple_game_of_life.cpp:81-88) when the squares
in `B` are to be alive, as a calculation that doesn't look at other cells. Simplified: in examples/game_of_life.cpp `B` is random. -/
def setBoard (g : Cfg) (B : Nat → Nat → Bool) (c : Nat) (_ : Option Nat) (_ : List ((Nat × V3 Int) × Option Nat)) : Nat :=
  if B ((c - 1) % g.len 0) ((c - 1) / g.len 0) = true then 1 else 0

/-- Counting of live neighbors in tests/user_neighborhood/game_of_life.cpp:316-321, where a neighbor is alive if the first integer of its data is one.
Only that integer is modelled as data of cells, and it is a natural number: only zero and one are written to it. -/
def countOnes (_ : Nat) (l : List ((Nat × V3 Int) × Option Nat)) : Nat := l.countP fun x => decide (x.2 = some 1)

/-- The neighborhood of tests/user_neighborhood/game_of_life.cpp:173-182. -/
def spacedHood : List (V3 Int) := [v3 (-2) (-2) 0, v3 (-2) 0 0, v3 (-2) 2 0, v3 0 (-2) 0, v3 0 2 0, v3 2 (-2) 0, v3 2 0 0, v3 2 2 0]

/-- `wrap_coordinates` (tests/user_neighborhood/game_of_life.cpp:27-37). The loop adds `size` until `y` is not negative. -/
def wrapSquare (size : Nat) (x y : Int) : Int × Int := (x.tmod size, y % size)

/-- `get_live_cells` (tests/user_neighborhood/game_of_life.cpp:45-131) of a time step divisible by 4: toad, blinker, beehive, beacon, block and glider.
A list instead of a set, integers don't overflow. -/
def getLiveCells (size step : Nat) : List Nat :=
  let toad := 12 * size + 6
  let blinker := 14 * size + 1
  let beehive := 10 * size + 7
  let beacon := 15 * size + 6
  let block := 5 * size + 2
  let k : Int := (step / 4 : Nat)
  [toad, toad + 2, toad + 4, toad + 2 + 2 * size, toad + 4 + 2 * size, toad + 6 + 2 * size,
    blinker, blinker + 2, blinker + 4,
    beehive + 2, beehive + 4, beehive - 2 * size, beehive - 2 * size + 6, beehive - 4 * size + 2, beehive - 4 * size + 4,
    beacon, beacon + 2, beacon - 2 * size, beacon + 6 - 4 * size, beacon + 4 - 6 * size, beacon + 6 - 6 * size,
    block, block + 2, block - 2 * size, block + 2 - 2 * size] ++
  ([(3 + 2 * k, 15 - 2 * k), (5 + 2 * k, 13 - 2 * k), (1 + 2 * k, 11 - 2 * k), (3 + 2 * k, 11 - 2 * k), (5 + 2 * k, 11 - 2 * k)] : List (Int × Int)).map
    fun z => (wrapSquare size z.1 z.2).2.toNat * size + (wrapSquare size z.1 z.2).1.toNat

end Dccrg
