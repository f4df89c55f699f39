import Verif.Props.ExpJoin

/-!
# Property C55: `p % exp(l)` in one program

The sandwich product is expanded over the sum that `exp` returns, so the program is not the one of the motor.  It returns the same point; the entity has
four components more, which are zero.
-/

namespace Gal

open Out
open scoped Matrix

/-- `[](auto p, auto l) { return p % exp(l); }` for a point and a line (expr.hpp:906-919, 1127-1131). -/
def expMoveExpr : Out Rpne := do
  let m ← expExpr 4 (entityExpr 3 1)
  sandwichExpr (entityExpr 0 0) m

/-- The temporaries for the numbers of the exponential. -/
def expMoveTemps : List (MvOp × NMv × Nat) :=
    [(.id, [⟨0, [⟨⟨-1, 1⟩, ⟨2, 1⟩, [⟨3, ⟨2, 1⟩⟩]⟩, ⟨⟨-1, 1⟩, ⟨2, 1⟩, [⟨4, ⟨2, 1⟩⟩]⟩, ⟨⟨-1, 1⟩, ⟨2, 1⟩, [⟨5, ⟨2, 1⟩⟩]⟩]⟩], 9),
    (.sqrt, [⟨0, [⟨⟨-1, 1⟩, .one, [⟨9, .one⟩]⟩]⟩], 10),
    (.cos, [⟨0, [⟨.one, .one, [⟨10, .one⟩]⟩]⟩], 11),
    (.id, [⟨15, [⟨⟨2, 1⟩, ⟨2, 1⟩, [⟨3, .one⟩, ⟨6, .one⟩]⟩, ⟨⟨-2, 1⟩, ⟨2, 1⟩, [⟨4, .one⟩, ⟨7, .one⟩]⟩, ⟨⟨2, 1⟩, ⟨2, 1⟩, [⟨5, .one⟩, ⟨8,
    .one⟩]⟩]⟩], 12),
    (.id, [⟨0, [⟨⟨-1, 2⟩, ⟨2, 1⟩, [⟨10, ⟨-1, 1⟩⟩, ⟨12, .one⟩]⟩]⟩], 13),
    (.sin, [⟨0, [⟨.one, .one, [⟨10, .one⟩]⟩]⟩], 14),
    (.id, [⟨15, [⟨.one, ⟨2, 1⟩, [⟨13, .one⟩, ⟨14, .one⟩]⟩]⟩], 15),
    (.id, [⟨0, [⟨.one, ⟨2, 1⟩, [⟨11, .one⟩, ⟨13, .one⟩]⟩]⟩], 16),
    (.id, [⟨0, [⟨.one, .one, [⟨14, .one⟩]⟩]⟩, ⟨15, [⟨.one, .one, [⟨16, .one⟩]⟩]⟩], 17),
    (.id, [⟨0, [⟨.one, .one, [⟨10, ⟨-1, 1⟩⟩]⟩]⟩], 19),
    (.id, [⟨0, [⟨.one, ⟨2, 1⟩, [⟨9, ⟨-1, 1⟩⟩, ⟨13, .one⟩]⟩]⟩], 20)]

/-- The temporary for `exp(l) * p`. -/
def expMoveHalf : List (MvOp × NMv × Nat) :=
    [(.id, [⟨1, [⟨.one, .one, [⟨15, .one⟩]⟩, ⟨⟨-1, 1⟩, ⟨4, 1⟩, [⟨0, .one⟩, ⟨3, .one⟩, ⟨17, .one⟩, ⟨19, .one⟩]⟩, ⟨⟨-1, 1⟩, ⟨4, 1⟩, [⟨1, .one⟩, ⟨4,
    .one⟩, ⟨17, .one⟩, ⟨19, .one⟩]⟩, ⟨⟨-1, 1⟩, ⟨4, 1⟩, [⟨2, .one⟩, ⟨5, .one⟩, ⟨17, .one⟩, ⟨19, .one⟩]⟩]⟩, ⟨2, [⟨.one, ⟨3, 1⟩, [⟨3, .one⟩, ⟨17,
    .one⟩, ⟨19, .one⟩]⟩]⟩, ⟨4, [⟨.one, ⟨3, 1⟩, [⟨4, .one⟩, ⟨17, .one⟩, ⟨19, .one⟩]⟩]⟩, ⟨7, [⟨⟨-1, 1⟩, ⟨2, 1⟩, [⟨2, .one⟩, ⟨11, .one⟩]⟩, ⟨.one,
    ⟨3, 1⟩, [⟨5, .one⟩, ⟨17, .one⟩, ⟨20, .one⟩]⟩, ⟨.one, ⟨3, 1⟩, [⟨5, .one⟩, ⟨18, .one⟩, ⟨19, .one⟩]⟩, ⟨⟨-1, 1⟩, ⟨3, 1⟩, [⟨8, .one⟩, ⟨17, .one⟩,
    ⟨19, .one⟩]⟩, ⟨.one, ⟨4, 1⟩, [⟨0, .one⟩, ⟨4, .one⟩, ⟨17, .one⟩, ⟨19, .one⟩]⟩, ⟨⟨-1, 1⟩, ⟨4, 1⟩, [⟨1, .one⟩, ⟨3, .one⟩, ⟨17, .one⟩, ⟨19,
    .one⟩]⟩]⟩, ⟨8, [⟨.one, ⟨3, 1⟩, [⟨5, .one⟩, ⟨17, .one⟩, ⟨19, .one⟩]⟩]⟩, ⟨11, [⟨.one, ⟨2, 1⟩, [⟨1, .one⟩, ⟨11, .one⟩]⟩, ⟨⟨-1, 1⟩, ⟨3, 1⟩, [⟨4,
    .one⟩, ⟨17, .one⟩, ⟨20, .one⟩]⟩, ⟨⟨-1, 1⟩, ⟨3, 1⟩, [⟨4, .one⟩, ⟨18, .one⟩, ⟨19, .one⟩]⟩, ⟨⟨-1, 1⟩, ⟨3, 1⟩, [⟨7, .one⟩, ⟨17, .one⟩, ⟨19,
    .one⟩]⟩, ⟨.one, ⟨4, 1⟩, [⟨0, .one⟩, ⟨5, .one⟩, ⟨17, .one⟩, ⟨19, .one⟩]⟩, ⟨⟨-1, 1⟩, ⟨4, 1⟩, [⟨2, .one⟩, ⟨3, .one⟩, ⟨17, .one⟩, ⟨19, .one⟩]⟩]⟩,
    ⟨13, [⟨⟨-1, 1⟩, ⟨2, 1⟩, [⟨0, .one⟩, ⟨11, .one⟩]⟩, ⟨.one, ⟨3, 1⟩, [⟨3, .one⟩, ⟨17, .one⟩, ⟨20, .one⟩]⟩, ⟨.one, ⟨3, 1⟩, [⟨3, .one⟩, ⟨18, .one⟩,
    ⟨19, .one⟩]⟩, ⟨⟨-1, 1⟩, ⟨3, 1⟩, [⟨6, .one⟩, ⟨17, .one⟩, ⟨19, .one⟩]⟩, ⟨.one, ⟨4, 1⟩, [⟨1, .one⟩, ⟨5, .one⟩, ⟨17, .one⟩, ⟨19, .one⟩]⟩, ⟨⟨-1,
    1⟩, ⟨4, 1⟩, [⟨2, .one⟩, ⟨4, .one⟩, ⟨17, .one⟩, ⟨19, .one⟩]⟩]⟩, ⟨14, [⟨.one, .one, [⟨11, .one⟩]⟩]⟩], 21)]

/-- The temporaries for `~exp(l)`. -/
def expMoveRev : List (MvOp × NMv × Nat) :=
    [(.id, [⟨15, [⟨.one, ⟨2, 1⟩, [⟨13, .one⟩, ⟨14, .one⟩]⟩]⟩], 29),
    (.id, [⟨0, [⟨.one, .one, [⟨14, .one⟩]⟩]⟩, ⟨15, [⟨.one, .one, [⟨16, .one⟩]⟩]⟩], 30)]

/-- The result. -/
def expMoveResult : NMv :=
    [⟨1, [⟨.one, ⟨2, 1⟩, [⟨11, .one⟩, ⟨21, .one⟩]⟩, ⟨⟨-1, 1⟩, ⟨2, 1⟩, [⟨28, .one⟩, ⟨29, .one⟩]⟩, ⟨.one, ⟨4, 1⟩, [⟨3, .one⟩, ⟨19, .one⟩, ⟨22,
    .one⟩, ⟨31, .one⟩]⟩, ⟨⟨-1, 1⟩, ⟨4, 1⟩, [⟨3, .one⟩, ⟨19, .one⟩, ⟨27, .one⟩, ⟨30, .one⟩]⟩, ⟨.one, ⟨4, 1⟩, [⟨3, .one⟩, ⟨20, .one⟩, ⟨22, .one⟩,
    ⟨30, .one⟩]⟩, ⟨.one, ⟨4, 1⟩, [⟨4, .one⟩, ⟨19, .one⟩, ⟨23, .one⟩, ⟨31, .one⟩]⟩, ⟨.one, ⟨4, 1⟩, [⟨4, .one⟩, ⟨19, .one⟩, ⟨26, .one⟩, ⟨30,
    .one⟩]⟩, ⟨.one, ⟨4, 1⟩, [⟨4, .one⟩, ⟨20, .one⟩, ⟨23, .one⟩, ⟨30, .one⟩]⟩, ⟨⟨-1, 1⟩, ⟨4, 1⟩, [⟨5, .one⟩, ⟨19, .one⟩, ⟨24, .one⟩, ⟨30, .one⟩]⟩,
    ⟨.one, ⟨4, 1⟩, [⟨5, .one⟩, ⟨19, .one⟩, ⟨25, .one⟩, ⟨31, .one⟩]⟩, ⟨.one, ⟨4, 1⟩, [⟨5, .one⟩, ⟨20, .one⟩, ⟨25, .one⟩, ⟨30, .one⟩]⟩, ⟨⟨-1, 1⟩,
    ⟨4, 1⟩, [⟨6, .one⟩, ⟨19, .one⟩, ⟨22, .one⟩, ⟨30, .one⟩]⟩, ⟨.one, ⟨4, 1⟩, [⟨7, .one⟩, ⟨19, .one⟩, ⟨23, .one⟩, ⟨30, .one⟩]⟩, ⟨⟨-1, 1⟩, ⟨4, 1⟩,
    [⟨8, .one⟩, ⟨19, .one⟩, ⟨25, .one⟩, ⟨30, .one⟩]⟩]⟩, ⟨2, [⟨.one, ⟨2, 1⟩, [⟨11, .one⟩, ⟨22, .one⟩]⟩, ⟨⟨-1, 1⟩, ⟨4, 1⟩, [⟨3, .one⟩, ⟨19, .one⟩,
    ⟨28, .one⟩, ⟨30, .one⟩]⟩, ⟨.one, ⟨4, 1⟩, [⟨4, .one⟩, ⟨19, .one⟩, ⟨25, .one⟩, ⟨30, .one⟩]⟩, ⟨⟨-1, 1⟩, ⟨4, 1⟩, [⟨5, .one⟩, ⟨19, .one⟩, ⟨23,
    .one⟩, ⟨30, .one⟩]⟩]⟩, ⟨4, [⟨.one, ⟨2, 1⟩, [⟨11, .one⟩, ⟨23, .one⟩]⟩, ⟨⟨-1, 1⟩, ⟨4, 1⟩, [⟨3, .one⟩, ⟨19, .one⟩, ⟨25, .one⟩, ⟨30, .one⟩]⟩,
    ⟨⟨-1, 1⟩, ⟨4, 1⟩, [⟨4, .one⟩, ⟨19, .one⟩, ⟨28, .one⟩, ⟨30, .one⟩]⟩, ⟨.one, ⟨4, 1⟩, [⟨5, .one⟩, ⟨19, .one⟩, ⟨22, .one⟩, ⟨30, .one⟩]⟩]⟩, ⟨7,
    [⟨.one, ⟨2, 1⟩, [⟨11, .one⟩, ⟨24, .one⟩]⟩, ⟨.one, ⟨2, 1⟩, [⟨25, .one⟩, ⟨29, .one⟩]⟩, ⟨⟨-1, 1⟩, ⟨4, 1⟩, [⟨3, .one⟩, ⟨19, .one⟩, ⟨23, .one⟩,
    ⟨31, .one⟩]⟩, ⟨⟨-1, 1⟩, ⟨4, 1⟩, [⟨3, .one⟩, ⟨19, .one⟩, ⟨26, .one⟩, ⟨30, .one⟩]⟩, ⟨⟨-1, 1⟩, ⟨4, 1⟩, [⟨3, .one⟩, ⟨20, .one⟩, ⟨23, .one⟩, ⟨30,
    .one⟩]⟩, ⟨.one, ⟨4, 1⟩, [⟨4, .one⟩, ⟨19, .one⟩, ⟨22, .one⟩, ⟨31, .one⟩]⟩, ⟨⟨-1, 1⟩, ⟨4, 1⟩, [⟨4, .one⟩, ⟨19, .one⟩, ⟨27, .one⟩, ⟨30, .one⟩]⟩,
    ⟨.one, ⟨4, 1⟩, [⟨4, .one⟩, ⟨20, .one⟩, ⟨22, .one⟩, ⟨30, .one⟩]⟩, ⟨.one, ⟨4, 1⟩, [⟨5, .one⟩, ⟨19, .one⟩, ⟨21, .one⟩, ⟨30, .one⟩]⟩, ⟨.one, ⟨4,
    1⟩, [⟨5, .one⟩, ⟨19, .one⟩, ⟨28, .one⟩, ⟨31, .one⟩]⟩, ⟨.one, ⟨4, 1⟩, [⟨5, .one⟩, ⟨20, .one⟩, ⟨28, .one⟩, ⟨30, .one⟩]⟩, ⟨.one, ⟨4, 1⟩, [⟨6,
    .one⟩, ⟨19, .one⟩, ⟨23, .one⟩, ⟨30, .one⟩]⟩, ⟨.one, ⟨4, 1⟩, [⟨7, .one⟩, ⟨19, .one⟩, ⟨22, .one⟩, ⟨30, .one⟩]⟩, ⟨⟨-1, 1⟩, ⟨4, 1⟩, [⟨8, .one⟩,
    ⟨19, .one⟩, ⟨28, .one⟩, ⟨30, .one⟩]⟩]⟩, ⟨8, [⟨.one, ⟨2, 1⟩, [⟨11, .one⟩, ⟨25, .one⟩]⟩, ⟨.one, ⟨4, 1⟩, [⟨3, .one⟩, ⟨19, .one⟩, ⟨23, .one⟩,
    ⟨30, .one⟩]⟩, ⟨⟨-1, 1⟩, ⟨4, 1⟩, [⟨4, .one⟩, ⟨19, .one⟩, ⟨22, .one⟩, ⟨30, .one⟩]⟩, ⟨⟨-1, 1⟩, ⟨4, 1⟩, [⟨5, .one⟩, ⟨19, .one⟩, ⟨28, .one⟩, ⟨30,
    .one⟩]⟩]⟩, ⟨11, [⟨.one, ⟨2, 1⟩, [⟨11, .one⟩, ⟨26, .one⟩]⟩, ⟨⟨-1, 1⟩, ⟨2, 1⟩, [⟨23, .one⟩, ⟨29, .one⟩]⟩, ⟨.one, ⟨4, 1⟩, [⟨3, .one⟩, ⟨19,
    .one⟩, ⟨24, .one⟩, ⟨30, .one⟩]⟩, ⟨⟨-1, 1⟩, ⟨4, 1⟩, [⟨3, .one⟩, ⟨19, .one⟩, ⟨25, .one⟩, ⟨31, .one⟩]⟩, ⟨⟨-1, 1⟩, ⟨4, 1⟩, [⟨3, .one⟩, ⟨20,
    .one⟩, ⟨25, .one⟩, ⟨30, .one⟩]⟩, ⟨⟨-1, 1⟩, ⟨4, 1⟩, [⟨4, .one⟩, ⟨19, .one⟩, ⟨21, .one⟩, ⟨30, .one⟩]⟩, ⟨⟨-1, 1⟩, ⟨4, 1⟩, [⟨4, .one⟩, ⟨19,
    .one⟩, ⟨28, .one⟩, ⟨31, .one⟩]⟩, ⟨⟨-1, 1⟩, ⟨4, 1⟩, [⟨4, .one⟩, ⟨20, .one⟩, ⟨28, .one⟩, ⟨30, .one⟩]⟩, ⟨.one, ⟨4, 1⟩, [⟨5, .one⟩, ⟨19, .one⟩,
    ⟨22, .one⟩, ⟨31, .one⟩]⟩, ⟨⟨-1, 1⟩, ⟨4, 1⟩, [⟨5, .one⟩, ⟨19, .one⟩, ⟨27, .one⟩, ⟨30, .one⟩]⟩, ⟨.one, ⟨4, 1⟩, [⟨5, .one⟩, ⟨20, .one⟩, ⟨22,
    .one⟩, ⟨30, .one⟩]⟩, ⟨.one, ⟨4, 1⟩, [⟨6, .one⟩, ⟨19, .one⟩, ⟨25, .one⟩, ⟨30, .one⟩]⟩, ⟨⟨-1, 1⟩, ⟨4, 1⟩, [⟨7, .one⟩, ⟨19, .one⟩, ⟨28, .one⟩,
    ⟨30, .one⟩]⟩, ⟨⟨-1, 1⟩, ⟨4, 1⟩, [⟨8, .one⟩, ⟨19, .one⟩, ⟨22, .one⟩, ⟨30, .one⟩]⟩]⟩, ⟨13, [⟨.one, ⟨2, 1⟩, [⟨11, .one⟩, ⟨27, .one⟩]⟩, ⟨.one,
    ⟨2, 1⟩, [⟨22, .one⟩, ⟨29, .one⟩]⟩, ⟨.one, ⟨4, 1⟩, [⟨3, .one⟩, ⟨19, .one⟩, ⟨21, .one⟩, ⟨30, .one⟩]⟩, ⟨.one, ⟨4, 1⟩, [⟨3, .one⟩, ⟨19, .one⟩,
    ⟨28, .one⟩, ⟨31, .one⟩]⟩, ⟨.one, ⟨4, 1⟩, [⟨3, .one⟩, ⟨20, .one⟩, ⟨28, .one⟩, ⟨30, .one⟩]⟩, ⟨.one, ⟨4, 1⟩, [⟨4, .one⟩, ⟨19, .one⟩, ⟨24, .one⟩,
    ⟨30, .one⟩]⟩, ⟨⟨-1, 1⟩, ⟨4, 1⟩, [⟨4, .one⟩, ⟨19, .one⟩, ⟨25, .one⟩, ⟨31, .one⟩]⟩, ⟨⟨-1, 1⟩, ⟨4, 1⟩, [⟨4, .one⟩, ⟨20, .one⟩, ⟨25, .one⟩, ⟨30,
    .one⟩]⟩, ⟨.one, ⟨4, 1⟩, [⟨5, .one⟩, ⟨19, .one⟩, ⟨23, .one⟩, ⟨31, .one⟩]⟩, ⟨.one, ⟨4, 1⟩, [⟨5, .one⟩, ⟨19, .one⟩, ⟨26, .one⟩, ⟨30, .one⟩]⟩,
    ⟨.one, ⟨4, 1⟩, [⟨5, .one⟩, ⟨20, .one⟩, ⟨23, .one⟩, ⟨30, .one⟩]⟩, ⟨⟨-1, 1⟩, ⟨4, 1⟩, [⟨6, .one⟩, ⟨19, .one⟩, ⟨28, .one⟩, ⟨30, .one⟩]⟩, ⟨⟨-1,
    1⟩, ⟨4, 1⟩, [⟨7, .one⟩, ⟨19, .one⟩, ⟨25, .one⟩, ⟨30, .one⟩]⟩, ⟨⟨-1, 1⟩, ⟨4, 1⟩, [⟨8, .one⟩, ⟨19, .one⟩, ⟨23, .one⟩, ⟨30, .one⟩]⟩]⟩, ⟨14,
    [⟨.one, ⟨2, 1⟩, [⟨11, .one⟩, ⟨28, .one⟩]⟩, ⟨.one, ⟨4, 1⟩, [⟨3, .one⟩, ⟨19, .one⟩, ⟨22, .one⟩, ⟨30, .one⟩]⟩, ⟨.one, ⟨4, 1⟩, [⟨4, .one⟩, ⟨19,
    .one⟩, ⟨23, .one⟩, ⟨30, .one⟩]⟩, ⟨.one, ⟨4, 1⟩, [⟨5, .one⟩, ⟨19, .one⟩, ⟨25, .one⟩, ⟨30, .one⟩]⟩]⟩]

theorem expMove_viewed : (do
    let e ← expMoveExpr
    let c ← compileExpr pgaMetric false 194 [pointArg (K := ℚ) [0, 0, 0], lineArg [0, 0, 0, 0, 0, 0]] e
    c.viewed) = ok ⟨expMoveTemps ++ (expMoveHalf ++ expMoveRev), [(.id, expMoveResult)], 32, .one⟩ := by decide +kernel

variable {K : Type} [Field K]

/-- `compute([](auto p, auto l) { return p % exp(l); }, p, l)`.  194 is the capacity of the expression: `exp(l)` has capacity 95 (expr.hpp:827, 907,
935, 1127-1131). -/
def computeExpMove (E : Env K) (p l : List K) : Out (Entity K) := do
  let e ← expMoveExpr
  computeExpr pgaMetric false 194 E [pointArg p, lineArg l] e >>= single

theorem expMoveTemps_run (E : Env K) (x y z a b c d e f s p u v si co : K)
    (hp : 2 * (a * d) + (-(2 * (b * e)) + 2 * (c * f)) = p)
    (hs : -(a * a) + (-(b * b) + -(c * c)) = s) (hu : E.fn .sqrt (c * c + b * b + a * a) = u) (hv : -1 / 2 * (u⁻¹ * p) = v)
    (hsi : E.fn .sin u = si) (hco : E.fn .cos u = co) :
    viewTemps { E with data := [x, y, z, a, b, c, d, e, f, 0, 0, 0, 0, 0, 0, 0, 0, 0, 0, 0, 0, 0, 0, 0, 0, 0, 0, 0, 0, 0, 0, 0] } expMoveTemps =
      ok { E with data := [x, y, z, a, b, c, d, e, f, s, u, co, p, v, si, v * si, co * v, si, co * v, u⁻¹, s⁻¹ * v, 0, 0, 0, 0, 0, 0, 0, 0, 0, 0, 0] } := by
  have hu' : E.fn .sqrt (-s) = u := by
    rw [← hs, ← hu]
    congr 1
    ring
  simp [expMoveTemps, viewTemps, tempLoop, Env.write, Env.term, Env.mon, Env.prod, Env.factor,
    Env.get, Env.pow, Gal.pow, powNat, Env.app, indConstantStart, Rat32.one, Rat32.cast, pure_eq, ok_bind, hp, hs, hu', hv, hsi, hco]

theorem expMoveHalf_run (E : Env K) (x y z a b c d e f s u co p v si vs g16 g17 cv iu w : K) :
    viewTemps { E with data := [x, y, z, a, b, c, d, e, f, s, u, co, p, v, g16, vs, g17, si, cv, iu, w, 0, 0, 0, 0, 0, 0, 0, 0, 0, 0, 0] } expMoveHalf =
      ok { E with data := [x, y, z, a, b, c, d, e, f, s, u, co, p, v, g16, vs, g17, si, cv, iu, w, vs + (-(x * (a * (si * iu))) + (-(y * (b * (si * iu))) + -(z * (c * (si * iu))))), a * (si * iu), b * (si * iu), -(z * co) + (c * (si * w) + (c * (cv * iu) + (-(f * (si * iu)) + (x * (b * (si * iu)) + -(y * (a * (si * iu))))))), c * (si * iu), y * co + (-(b * (si * w)) + (-(b * (cv * iu)) + (-(e * (si * iu)) + (x * (c * (si * iu)) + -(z * (a * (si * iu))))))), -(x * co) + (a * (si * w) + (a * (cv * iu) + (-(d * (si * iu)) + (y * (c * (si * iu)) + -(z * (b * (si * iu))))))), co, 0, 0, 0] } := by
  simp [expMoveHalf, viewTemps, tempLoop, Env.write, Env.term, Env.mon, Env.prod, Env.factor,
    Env.get, Env.pow, Gal.pow, Env.app, indConstantStart, Rat32.one, pure_eq, ok_bind]

theorem expMoveRev_run (E : Env K) (x y z a b c d e f s u co p v si vs cv g17 g18 iu w k1 k2 k4 k7 k8 k11 k13 k14 : K) :
    viewTemps { E with data := [x, y, z, a, b, c, d, e, f, s, u, co, p, v, si, vs, cv, g17, g18, iu, w, k1, k2, k4, k7, k8, k11, k13, k14, 0, 0, 0] }
      expMoveRev =
      ok { E with data := [x, y, z, a, b, c, d, e, f, s, u, co, p, v, si, vs, cv, g17, g18, iu, w, k1, k2, k4, k7, k8, k11, k13, k14, v * si, si, cv] } := by
  simp [expMoveRev, viewTemps, tempLoop, Env.write, Env.term, Env.mon, Env.prod, Env.factor,
    Env.get, Env.pow, Gal.pow, Env.app, indConstantStart, Rat32.one, pure_eq, ok_bind]

theorem expMoveResult_entity (E : Env K) (x y z a b c d e f s u co p v g14 g15 g16 g17 g18 iu w k1 k2 k4 k7 k8 k11 k13 k14 vs si cv : K) :
    viewEntity { E with data := [x, y, z, a, b, c, d, e, f, s, u, co, p, v, g14, g15, g16, g17, g18, iu, w, k1, k2, k4, k7, k8, k11, k13, k14, vs, si, cv] } .id expMoveResult .one =
      ok ⟨[1, 2, 4, 7, 8, 11, 13, 14],
        [co * k1 + (-(k14 * vs) + (a * (iu * (k2 * cv)) + (-(a * (iu * (k13 * si))) + (a * (w * (k2 * si)) + (b * (iu * (k4 * cv)) + (b * (iu *
        (k11 * si)) + (b * (w * (k4 * si)) + (-(c * (iu * (k7 * si))) + (c * (iu * (k8 * cv)) + (c * (w * (k8 * si)) + (-(d * (iu * (k2 * si))) +
        (e * (iu * (k4 * si)) + -(f * (iu * (k8 * si))))))))))))))), co * k2 + (-(a * (iu * (k14 * si))) + (b * (iu * (k8 * si)) + -(c * (iu *
        (k4 * si))))), co * k4 + (-(a * (iu * (k8 * si))) + (-(b * (iu * (k14 * si))) + c * (iu * (k2 * si)))), co * k7 + (k8 * vs + (-(a * (iu *
        (k4 * cv))) + (-(a * (iu * (k11 * si))) + (-(a * (w * (k4 * si))) + (b * (iu * (k2 * cv)) + (-(b * (iu * (k13 * si))) + (b * (w * (k2 *
        si)) + (c * (iu * (k1 * si)) + (c * (iu * (k14 * cv)) + (c * (w * (k14 * si)) + (d * (iu * (k4 * si)) + (e * (iu * (k2 * si)) + -(f * (iu
        * (k14 * si))))))))))))))), co * k8 + (a * (iu * (k4 * si)) + (-(b * (iu * (k2 * si))) + -(c * (iu * (k14 * si))))), co * k11 + (-(k4 *
        vs) + (a * (iu * (k7 * si)) + (-(a * (iu * (k8 * cv))) + (-(a * (w * (k8 * si))) + (-(b * (iu * (k1 * si))) + (-(b * (iu * (k14 * cv))) +
        (-(b * (w * (k14 * si))) + (c * (iu * (k2 * cv)) + (-(c * (iu * (k13 * si))) + (c * (w * (k2 * si)) + (d * (iu * (k8 * si)) + (-(e * (iu
        * (k14 * si))) + -(f * (iu * (k2 * si))))))))))))))), co * k13 + (k2 * vs + (a * (iu * (k1 * si)) + (a * (iu * (k14 * cv)) + (a * (w *
        (k14 * si)) + (b * (iu * (k7 * si)) + (-(b * (iu * (k8 * cv))) + (-(b * (w * (k8 * si))) + (c * (iu * (k4 * cv)) + (c * (iu * (k11 * si))
        + (c * (w * (k4 * si)) + (-(d * (iu * (k14 * si))) + (-(e * (iu * (k8 * si))) + -(f * (iu * (k4 * si))))))))))))))), co * k14 + (a * (iu
        * (k2 * si)) + (b * (iu * (k4 * si)) + c * (iu * (k8 * si))))]⟩ := by
  simp [expMoveResult, viewEntity, mapO, Env.term, Env.mon, Env.prod, Env.factor, Env.get, Env.pow, Gal.pow, Env.app, indConstantStart, scaleBy,
    Rat32.one, pure_eq, ok_bind]

theorem expMoveResult_run (E : Env K) (x y z a b c d e f s u co p v si iu w cv vs b' c' d' e' f' g' h' : K) (hcv : cv = co * v) (hvs : vs = v * si)
    (hb : b' = a * (si * w) + (a * (v * co * iu) + -(d * (si * iu)))) (hc : c' = b * (si * w) + (b * (v * co * iu) + e * (si * iu)))
    (hd : d' = -(c * (si * iu))) (he : e' = c * (si * w) + (c * (v * co * iu) + -(f * (si * iu)))) (hf : f' = b * (si * iu))
    (hg : g' = -(a * (si * iu))) (hh : h' = -(v * si)) :
    viewEntity { E with data := [x, y, z, a, b, c, d, e, f, s, u, co, p, v, si, v * si, co * v, si, co * v, iu, w, vs + (-(x * (a * (si * iu))) + (-(y * (b * (si * iu))) + -(z * (c * (si * iu))))), a * (si * iu), b * (si * iu), -(z * co) + (c * (si * w) + (c * (cv * iu) + (-(f * (si * iu)) + (x * (b * (si * iu)) + -(y * (a * (si * iu))))))), c * (si * iu), y * co + (-(b * (si * w)) + (-(b * (cv * iu)) + (-(e * (si * iu)) + (x * (c * (si * iu)) + -(z * (a * (si * iu))))))), -(x * co) + (a * (si * w) + (a * (cv * iu) + (-(d * (si * iu)) + (y * (c * (si * iu)) + -(z * (b * (si * iu))))))), co, v * si, si, co * v] }
        .id expMoveResult .one = ok
      ⟨[1, 2, 4, 7, 8, 11, 13, 14], [0, 0, 0,
        -((-2 * (co * f' - d' * g') * x - 2 * (co * g' + d' * f') * y + (co * co + d' * d' - f' * f' - g' * g') * z -
          2 * (co * e' - b' * f' - c' * g' + d' * h'))), 0,
        (-2 * (co * d' + f' * g') * x + (co * co - d' * d' + f' * f' - g' * g') * y + 2 * (co * g' - d' * f') * z -
          2 * (co * c' - b' * d' + e' * g' - f' * h')),
        -((co * co - d' * d' - f' * f' + g' * g') * x + 2 * (co * d' - f' * g') * y + 2 * (co * f' + d' * g') * z -
          2 * (co * b' + c' * d' + e' * f' + g' * h')),
        co * co + d' * d' + f' * f' + g' * g']⟩ := by
  subst hcv hvs hb hc hd he hf hg hh
  rw [expMoveResult_entity]
  congr 2
  simp only [List.cons.injEq, and_true]
  refine ⟨?_, ?_, ?_, ?_, ?_, ?_, ?_, ?_⟩ <;> ring

omit [Field K] in
theorem expMove_args (p : Fin 3 → K) (a b c d e f : K) : argsSize [pointArg [p 0, p 1, p 2], lineArg [a, b, c, d, e, f]] = 9 := by
  simp [argsSize, pointArg, lineArg]

/-- **C55 (move in one program)**: `compute([](auto p, auto l) { return p % exp(l); }, p, l)` returns the point that the motor computed first moves `p` to,
whatever the functions are. -/
theorem C55_exp_move [CharZero K] (E : Env K) (p : Fin 3 → K) (a b c d e f : K) :
    ∃ r7 r11 r13 r14, computeExpMove E [p 0, p 1, p 2] [a, b, c, d, e, f] = ok ⟨[1, 2, 4, 7, 8, 11, 13, 14], [0, 0, 0, r7, 0, r11, r13, r14]⟩ ∧
      vgaPointOf (⟨[1, 2, 4, 7, 8, 11, 13, 14], [0, 0, 0, r7, 0, r11, r13, r14]⟩ : Entity K) =
        (computeExp E (lineArg [a, b, c, d, e, f]) >>= fun m =>
          sandwichLam.compute pgaMetric false E [pointArg [p 0, p 1, p 2], m.toArg] >>= single >>= vgaPointOf) := by
  obtain ⟨x, hx, hr⟩ := lineExp_run E a b c d e f _ _ _ _ rfl rfl rfl rfl
  obtain ⟨y, hy, hr'⟩ := built_viewed pgaMetric E (args := [pointArg [p 0, p 1, p 2], lineArg [a, b, c, d, e, f]])
      (args' := [pointArg (K := ℚ) [0, 0, 0], lineArg [0, 0, 0, 0, 0, 0]]) (by rfl) expMove_viewed (by
    have hfill : fill (List.replicate (argsSize [pointArg [p 0, p 1, p 2], lineArg [a, b, c, d, e, f]] + 32 -
        argsSize [pointArg [p 0, p 1, p 2], lineArg [a, b, c, d, e, f]]) 0) 0 ([pointArg [p 0, p 1, p 2], lineArg [a, b, c, d, e, f]].map fun a => a.data) =
        ok [p 0, p 1, p 2, a, b, c, d, e, f, 0, 0, 0, 0, 0, 0, 0, 0, 0, 0, 0, 0, 0, 0, 0, 0, 0, 0, 0, 0, 0, 0, 0] := by
      simp [argsSize, pointArg, lineArg, fill, fill.fillOne, ok_bind]
    rw [hfill, ok_bind, viewTemps_append, expMoveTemps_run E _ _ _ _ _ _ _ _ _ _ _ _ _ _ _ rfl rfl rfl (congrArg (-1 / 2 * ·) (mul_comm _ _)) rfl rfl,
      ok_bind, viewTemps_append, expMoveHalf_run, ok_bind, expMoveRev_run, ok_bind]
    exact expMoveResult_run E _ _ _ _ _ _ _ _ _ _ _ _ _ _ _ _ _ _ _ _ _ _ _ _ _ _ rfl rfl rfl rfl rfl rfl rfl rfl rfl)
  refine ⟨_, _, _, _, by unfold computeExpMove; rw [hy, ok_bind, hr'], ?_⟩
  unfold computeExp
  rw [hx, ok_bind, hr, ok_bind]
  refine Eq.trans ?_ (move_run E _ _ _ _ _ _ _ _ _ _ _).symm
  unfold vgaPointOf
  rw [select_of (k := 6) (by decide) (by decide) rfl rfl, select_of (k := 5) (by decide) (by decide) rfl rfl,
    select_of (k := 3) (by decide) (by decide) rfl rfl, select_of (k := 7) (by decide) (by decide) rfl rfl]
  simp only [ok_bind, pure_eq]
  congr 1
  simp only [List.cons.injEq, and_true, div_eq_mul_inv, neg_mul_neg]
  refine ⟨?_, ?_, ?_⟩ <;> ring

/-- **C55 (move in one program, screw)**: so `p % exp(l)` in one lambda moves `p` along the screw of the line. -/
theorem C55_exp_move_line (E : Env ℝ) (hE : RealFns E) (u q p : Fin 3 → ℝ) (h : ℝ) (hu : u ≠ 0) :
    (computeExpMove E [p 0, p 1, p 2] [u 0, u 1, u 2, (q ⨯₃ u + h • u) 0, -(q ⨯₃ u + h • u) 1, (q ⨯₃ u + h • u) 2] >>= vgaPointOf) =
      ok (List.ofFn (screw u q h p)) := by
  obtain ⟨_, _, _, _, h1, h2⟩ := C55_exp_move E p (u 0) (u 1) (u 2) ((q ⨯₃ u + h • u) 0) (-(q ⨯₃ u + h • u) 1) ((q ⨯₃ u + h • u) 2)
  rw [h1, ok_bind, h2, ← C55_line E hE u q p h hu]
  rfl

/-- The vertical line through `(1, 2, 0)`. -/
example : (computeExpMove realEnv [3, 4, 5] [0, 0, 1, 2, 1, 0] >>= vgaPointOf) = ok (List.ofFn (screw ![0, 0, 1] ![1, 2, 0] 0 ![3, 4, 5])) := by
  have h := C55_exp_move_line realEnv realEnv_fns ![0, 0, 1] ![1, 2, 0] ![3, 4, 5] 0 (fun h => by simpa using congrFun h 2)
  simpa [cross_apply] using h

end Gal
