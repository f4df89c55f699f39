import Verif.Engine
import Verif.Metrics

/-!
# Named entities (public/gal/vga.hpp, pga.hpp, pga2.hpp, cga.hpp)

For every named entity: its indeterminate expression, its number of stored numbers, and the constructor from a computed
entity.  cga2.hpp does not compile (it mentions types that no longer exist) and is not modelled.  `normalize()` and
`motor::log()` are in `Verif.Versor`.
-/

namespace Gal

open Out

/-- `id + k` in `uint32_t` (e.g. vga.hpp:158-175). -/
def u32 (id k : Nat) : Nat := (id + k) % 2 ^ 32

/-- `rat{2}` (numeric.hpp). -/
def Rat32.two : Rat32 := ⟨2, 1⟩

/-! ## 3D vectors (vga.hpp) -/

/-- `vga::vector::ie` (vga.hpp:102-108). -/
def vgaVectorIe (id : Nat) : Mv := constructIe id [1, 2, 4]

/-- `vga::rotor::ie` (vga.hpp:270-285). -/
def vgaRotorIe (id : Nat) : Mv :=
  ⟨⟨8, 4, 4⟩, 7, 4, 4,
    [⟨u32 id 0, .one⟩, ⟨u32 id 1, .one⟩, ⟨u32 id 4, .one⟩, ⟨u32 id 1, .one⟩, ⟨u32 id 3, .one⟩, ⟨u32 id 1, .one⟩,
      ⟨u32 id 2, .one⟩],
    [⟨.one, .one, 1, 0⟩, ⟨.minusOne, .two, 2, 1⟩, ⟨.one, .two, 2, 3⟩, ⟨.minusOne, .two, 2, 5⟩],
    [⟨1, 0, 0⟩, ⟨1, 1, 3⟩, ⟨1, 2, 5⟩, ⟨1, 3, 6⟩], .id⟩

/-- `vga::point::ie` in the projective algebra (vga.hpp:156-175). -/
def vgaPointIe (id : Nat) : Mv :=
  ⟨⟨3, 4, 4⟩, 3, 4, 4, [⟨u32 id 2, .one⟩, ⟨u32 id 1, .one⟩, ⟨u32 id 0, .one⟩],
    [⟨.minusOne, .one, 1, 0⟩, ⟨.one, .one, 1, 1⟩, ⟨.minusOne, .one, 1, 2⟩, ⟨.one, .zero, 0, 0⟩],
    [⟨1, 0, 7⟩, ⟨1, 1, 11⟩, ⟨1, 2, 13⟩, ⟨1, 3, 14⟩], .id⟩

variable {K : Type} [Field K]

/-- `vga::vector(entity)` (vga.hpp:121-124) and `cga::point(entity)` (cga.hpp:117-120), in dimension `dim`. -/
def vectorOf (dim : Nat) (x : Entity K) : Out (List K) := x.selectMany dim [1, 2, 4]

/-- `vga::point(entity)` (vga.hpp:196-207). -/
def vgaPointOf (x : Entity K) : Out (List K) := do
  let a ← x.select 4 13
  let b ← x.select 4 11
  let c ← x.select 4 7
  let w ← x.select 4 14
  let wInv := 1 / w
  return [a * -wInv, b * wInv, c * -wInv]

/-- `vga::point::operator pga::point` (vga.hpp:209-213). -/
def vgaPointToPga (x y z : K) : Entity K := ⟨[7, 11, 13, 14], [-z, y, -x, 1]⟩

/-! ## 3D projective geometry (pga.hpp) -/

/-- `pga::rotor::ie` (pga.hpp:167-182). -/
def pgaRotorIe (id : Nat) : Mv :=
  ⟨⟨8, 4, 4⟩, 7, 4, 4,
    [⟨u32 id 0, .one⟩, ⟨u32 id 1, .one⟩, ⟨u32 id 4, .one⟩, ⟨u32 id 1, .one⟩, ⟨u32 id 3, .one⟩, ⟨u32 id 1, .one⟩,
      ⟨u32 id 2, .one⟩],
    [⟨.one, .one, 1, 0⟩, ⟨.one, .one, 1, 1⟩, ⟨.minusOne, .two, 2, 2⟩, ⟨.one, .two, 2, 3⟩],
    [⟨1, 0, 0⟩, ⟨1, 1, 6⟩, ⟨1, 2, 10⟩, ⟨1, 3, 12⟩], .id⟩

/-- `pga::translator::ie` (pga.hpp:233-249). -/
def pgaTranslatorIe (id : Nat) : Mv :=
  ⟨⟨6, 4, 4⟩, 6, 4, 4,
    [⟨u32 id 0, .one⟩, ⟨u32 id 1, .one⟩, ⟨u32 id 0, .one⟩, ⟨u32 id 1, .one⟩, ⟨u32 id 0, .one⟩, ⟨u32 id 2, .one⟩],
    [⟨.one, .zero, 0, 0⟩, ⟨.minusOneHalf, .two, 2, 1⟩, ⟨.minusOneHalf, .two, 2, 2⟩, ⟨.minusOneHalf, .two, 2, 3⟩],
    [⟨1, 0, 0⟩, ⟨1, 1, 3⟩, ⟨1, 2, 5⟩, ⟨1, 3, 9⟩], .id⟩

/-- The elements of a motor (pga.hpp:279, 297). -/
def motorElements : List Nat := [0, 3, 5, 6, 9, 10, 12, 15]

/-- `pga::motor::ie` (pga.hpp:274-280). -/
def pgaMotorIe (id : Nat) : Mv := constructIe id motorElements

/-- `pga::motor(entity)` (pga.hpp:295-298). -/
def pgaMotorOf (x : Entity K) : Out (List K) := x.selectMany 4 motorElements

/-- `motor::bivector` (pga.hpp:300-304). -/
def motorBivector (d : List K) : Entity K :=
  ⟨[3, 5, 6, 9, 10, 12], [d.getD 1 0, d.getD 2 0, d.getD 3 0, d.getD 4 0, d.getD 5 0, d.getD 6 0]⟩

/-- `pga::plane::ie` (pga.hpp:347-353). -/
def pgaPlaneIe (id : Nat) : Mv := constructIe id [1, 2, 4, 8]

/-- `pga::plane(entity)` (pga.hpp:367-370). -/
def pgaPlaneOf (x : Entity K) : Out (List K) := x.selectMany 4 [1, 2, 4, 8]

/-- `pga::point` is an entity with these elements (pga.hpp:384). -/
def pgaPointElements : List Nat := [7, 11, 13, 14]

/-- `pga::vector::ie` (pga.hpp:404-422): the recorded size (3, 4, 4) exceeds the arrays. -/
def pgaVectorIe (id : Nat) : Mv :=
  ⟨⟨3, 3, 3⟩, 3, 4, 4, [⟨u32 id 2, .one⟩, ⟨u32 id 1, .one⟩, ⟨u32 id 0, .one⟩],
    [⟨.minusOne, .one, 1, 0⟩, ⟨.one, .one, 1, 1⟩, ⟨.minusOne, .one, 1, 2⟩],
    [⟨1, 0, 7⟩, ⟨1, 1, 11⟩, ⟨1, 2, 13⟩], .id⟩

/-- `pga::vector(entity)` (pga.hpp:435-441). -/
def pgaVectorOf (x : Entity K) : Out (List K) := do
  let a ← x.select 4 13
  let b ← x.select 4 11
  let c ← x.select 4 7
  return [-a, b, -c]

/-- `pga::line::ie` (pga.hpp:477-504). -/
def pgaLineIe (id : Nat) : Mv :=
  ⟨⟨6, 6, 6⟩, 6, 6, 6,
    [⟨u32 id 3, .one⟩, ⟨u32 id 4, .one⟩, ⟨u32 id 2, .one⟩, ⟨u32 id 5, .one⟩, ⟨u32 id 1, .one⟩, ⟨u32 id 0, .one⟩],
    [⟨.minusOne, .one, 1, 0⟩, ⟨.one, .one, 1, 1⟩, ⟨.minusOne, .one, 1, 2⟩, ⟨.minusOne, .one, 1, 3⟩, ⟨.one, .one, 1, 4⟩,
      ⟨.minusOne, .one, 1, 5⟩],
    [⟨1, 0, 3⟩, ⟨1, 1, 5⟩, ⟨1, 2, 6⟩, ⟨1, 3, 9⟩, ⟨1, 4, 10⟩, ⟨1, 5, 12⟩], .id⟩

/-- `pga::line(entity)` (pga.hpp:520-528): `dx dy dz mx my mz`. -/
def pgaLineOf (x : Entity K) : Out (List K) := do
  let dx ← x.select 4 12
  let dy ← x.select 4 10
  let dz ← x.select 4 6
  let mx ← x.select 4 3
  let my ← x.select 4 5
  let mz ← x.select 4 9
  return [-dx, dy, -dz, -mx, my, -mz]

/-! ## 2D projective geometry (pga2.hpp) -/

/-- `pga2::line::ie` (pga2.hpp:86-92). -/
def pga2LineIe (id : Nat) : Mv := constructIe id [1, 2, 4]

/-- `pga2::line(entity)` (pga2.hpp:105-108). -/
def pga2LineOf (x : Entity K) : Out (List K) := x.selectMany 3 [1, 2, 4]

/-- `pga2::point::ie` (pga2.hpp:147-162): the first monomial has count 0 and offset 1. -/
def pga2PointIe (id : Nat) : Mv :=
  ⟨⟨2, 3, 3⟩, 2, 3, 3, [⟨u32 id 1, ⟨1, 1⟩⟩, ⟨u32 id 0, ⟨1, 1⟩⟩],
    [⟨.minusOne, .one, 0, 1⟩, ⟨.one, .one, 1, 1⟩, ⟨.one, .zero, 0, 0⟩],
    [⟨1, 0, 3⟩, ⟨1, 1, 5⟩, ⟨1, 2, 6⟩], .id⟩

/-- `pga2::point(entity)` (pga2.hpp:174-182): the selected coordinates are overwritten. -/
def pga2PointOf (x : Entity K) : Out (List K) := do
  let _ ← x.select 3 5
  let _ ← x.select 3 3
  let w ← x.select 3 6
  let wInv := 1 / w
  return [wInv, -wInv]

/-- `pga2::vector::ie` (pga2.hpp:211-229). -/
def pga2VectorIe (id : Nat) : Mv :=
  ⟨⟨3, 3, 3⟩, 3, 4, 4, [⟨u32 id 2, ⟨1, 1⟩⟩, ⟨u32 id 1, ⟨1, 1⟩⟩, ⟨u32 id 0, ⟨1, 1⟩⟩],
    [⟨.minusOne, .one, 0, 1⟩, ⟨.one, .one, 1, 1⟩, ⟨.minusOne, .one, 2, 1⟩],
    [⟨1, 0, 7⟩, ⟨1, 1, 11⟩, ⟨1, 2, 13⟩], .id⟩

/-! ## 3D conformal geometry (cga.hpp) -/

/-- `cga::point::ie` (cga.hpp:122-150), in the null basis: element 8 is the origin, element 16 is infinity. -/
def cgaPointIe (id : Nat) : Mv :=
  ⟨⟨6, 7, 5⟩, 6, 7, 5,
    [⟨u32 id 0, .one⟩, ⟨u32 id 1, .one⟩, ⟨u32 id 2, .one⟩, ⟨u32 id 0, .two⟩, ⟨u32 id 1, .two⟩, ⟨u32 id 2, .two⟩],
    [⟨.one, .one, 1, 0⟩, ⟨.one, .one, 1, 1⟩, ⟨.one, .one, 1, 2⟩, ⟨.one, .zero, 0, 0⟩, ⟨.oneHalf, .two, 1, 3⟩,
      ⟨.oneHalf, .two, 1, 4⟩, ⟨.oneHalf, .two, 1, 5⟩],
    [⟨1, 0, 1⟩, ⟨1, 1, 2⟩, ⟨1, 2, 4⟩, ⟨1, 3, 8⟩, ⟨3, 4, 16⟩], .id⟩

end Gal
