import Verif.Bytes
import Verif.GeomSet
import Verif.Collective
/-!
# Records of mapping, topology and geometry in files

Models of `write`, `read` and `data_size` of `Mapping`, `Grid_Topology` and the three geometry classes. Offsets of files are
natural numbers, their overflow is not modelled. MPI functions are assumed to succeed.
-/
namespace Dccrg

/-! ## Mapping -/

/-- `Mapping::write` (dccrg_mapping.hpp:615-652): what is written. -/
def Mapping.writes (e : Order) (m : Mapping) (off : Nat) : List Write :=
  [(off, enc64 e [m.len 0, m.len 1, m.len 2]), (off + 24, encInt e m.maxLvl)]

/-- `Mapping::data_size` (dccrg_mapping.hpp:658-661). -/
def Mapping.dataSize (_ : Mapping) : Nat := 24 + 4

/-- Triple from an array. -/
def triple (l : List Nat) : V3 Nat := v3 (l.getD 0 0) (l.getD 1 0) (l.getD 2 0)

/-- `Mapping::read` from `MPI_File` (dccrg_mapping.hpp:516-569): result and new state. -/
def Mapping.read (e : Order) (f : File) (off : Nat) (m : Mapping) : Bool × Mapping :=
  let length := triple (dec64 e 3 (f.get off 24))
  let r := m.setLength length
  if r.1 = false then (false, r.2)
  else
    let lvl := decInt e (f.read (off + 24) (encInt e (-1)))
    r.2.setMaxLvl lvl

/-- `Mapping::read` from `std::ifstream` (dccrg_mapping.hpp:573-607), `l` is the rest of the stream: result, new state and
rest of the stream. -/
def Mapping.readStream (e : Order) (l : List Nat) (m : Mapping) : Bool × Mapping × List Nat :=
  if l.length < 24 then (false, m, [])
  else
    let r := m.setLength (triple (dec64 e 3 (l.take 24)))
    if r.1 = false then (false, r.2, l.drop 24)
    else if (l.drop 24).length < 4 then (false, r.2, [])
    else
      let q := r.2.setMaxLvl (decInt e ((l.drop 24).take 4))
      (q.1, q.2, (l.drop 24).drop 4)

/-! ## Topology -/

/-- `Grid_Topology::write` (dccrg_topology.hpp:170-200). -/
def topologyWrites (per : V3 Bool) (off : Nat) : List Write :=
  [(off, [if per 0 then 1 else 0, if per 1 then 1 else 0, if per 2 then 1 else 0])]

/-- `Grid_Topology::data_size` (dccrg_topology.hpp:205-208). -/
def topologySize : Nat := 3

/-- `Grid_Topology::read` from `MPI_File` (dccrg_topology.hpp:108-137), always succeeds. -/
def topologyRead (f : File) (off : Nat) : V3 Bool :=
  let data := f.get off 3
  v3 (decide (data.getD 0 0 > 0)) (decide (data.getD 1 0 > 0)) (decide (data.getD 2 0 > 0))

/-- `Grid_Topology::read` from `std::ifstream` (dccrg_topology.hpp:141-162): result, new state and rest of the
stream. -/
def topologyReadStream (l : List Nat) (per : V3 Bool) : Bool × V3 Bool × List Nat :=
  if l.length < 3 then (false, per, [])
  else (true, v3 (decide (l.getD 0 0 > 0)) (decide (l.getD 1 0 > 0)) (decide (l.getD 2 0 > 0)), l.drop 3)

/-! ## Geometries -/

/-- Parameters of the geometry class of a grid. -/
inductive GeomPar where
  | no
  | cartesian (p : CartPar)
  | stretched (p : StretchPar)

/-- `geometry_id` (dccrg_no_geometry.hpp:55, dccrg_cartesian_geometry.hpp:106,
dccrg_stretched_cartesian_geometry.hpp:78). -/
def GeomPar.id : GeomPar → Int
  | .no => 0
  | .cartesian _ => 1
  | .stretched _ => 2

/-- Array of three numbers. -/
def list3 (v : V3 Nat) : List Nat := [v 0, v 1, v 2]

/-- `write` of geometries (dccrg_no_geometry.hpp:486-507, dccrg_cartesian_geometry.hpp:620-673,
dccrg_stretched_cartesian_geometry.hpp:652-715). Numbers of coordinates that do not fit into `int` are not modelled. -/
def GeomPar.writes (e : Order) (G : GeomPar) (off : Nat) : List Write :=
  (off, encInt e G.id) :: match G with
  | .no => []
  | .cartesian p => [(off + 4, enc64 e (list3 p.start)), (off + 4 + 24, enc64 e (list3 p.len))]
  | .stretched p =>
    let o := off + 4 + 24
    [(off + 4, enc64 e [(p.coords 0).length, (p.coords 1).length, (p.coords 2).length]),
      (o, enc64 e (p.coords 0)),
      (o + (p.coords 0).length * 8, enc64 e (p.coords 1)),
      (o + (p.coords 0).length * 8 + (p.coords 1).length * 8, enc64 e (p.coords 2))]

/-- `data_size` of geometries (dccrg_no_geometry.hpp:547-550, dccrg_cartesian_geometry.hpp:810-813,
dccrg_stretched_cartesian_geometry.hpp:808-817). -/
def GeomPar.dataSize : GeomPar → Nat
  | .no => 4
  | .cartesian _ => 4 + 6 * 8
  | .stretched p => 4 + 3 * 8 + (p.coords 0).length * 8 + (p.coords 1).length * 8 + (p.coords 2).length * 8

/-- Bits of 1 as `double`. -/
def oneBits : Nat := 1023 * 2 ^ 52

/-- `read` of geometries from `MPI_File` (dccrg_no_geometry.hpp:514-541, dccrg_cartesian_geometry.hpp:683-753,
dccrg_stretched_cartesian_geometry.hpp:723-800): result and new parameters of the geometry `G` of a grid with mapping
`m`. -/
def GeomPar.read (e : Order) (f : File) (off : Nat) (m : Mapping) (G : GeomPar) : Bool × GeomPar :=
  let id := decInt e (f.read off (encInt e (G.id + 1)))
  if id ≠ G.id then (false, G)
  else match G with
  | .no => (true, .no)
  | .cartesian p =>
    let new : CartPar :=
      { start := triple (dec64 e 3 (f.get (off + 4) 24))
        len := triple (dec64 e 3 (f.read (off + 4 + 24) (enc64 e [oneBits, oneBits, oneBits]))) }
    ((p.set new).1, .cartesian (p.set new).2)
  | .stretched p =>
    let number := triple (dec64 e 3 (f.get (off + 4) 24))
    let o := off + 4 + 24
    let new : StretchPar :=
      { coords := v3 (dec64 e (number 0) (f.get o (number 0 * 8)))
          (dec64 e (number 1) (f.get (o + number 0 * 8) (number 1 * 8)))
          (dec64 e (number 2) (f.get (o + number 0 * 8 + number 1 * 8) (number 2 * 8))) }
    ((p.set m new).1, .stretched (p.set m new).2)

/-- `Cartesian_Geometry::read` from `std::ifstream` (dccrg_cartesian_geometry.hpp:757-804): result, new parameters and rest
of the stream. -/
def CartPar.readStream (e : Order) (l : List Nat) (p : CartPar) : Bool × CartPar × List Nat :=
  if l.length < 4 then (false, p, [])
  else if decInt e (l.take 4) ≠ 1 then (false, p, l.drop 4)
  else if (l.drop 4).length < 24 then (false, p, [])
  else if ((l.drop 4).drop 24).length < 24 then (false, p, [])
  else
    let new : CartPar :=
      { start := triple (dec64 e 3 ((l.drop 4).take 24)), len := triple (dec64 e 3 (((l.drop 4).drop 24).take 24)) }
    ((p.set new).1, (p.set new).2, ((l.drop 4).drop 24).drop 24)

end Dccrg
