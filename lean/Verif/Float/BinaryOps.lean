/- Binary32 (`Float/Binary.lean`) as a type with C's operators, for models that are generic in the arithmetic. -/
import Verif.Float.Calc
import Verif.Float.BinaryNet
namespace Emlearn.Flt.Binary32

noncomputable instance : Zero F32 := ⟨rnd 0⟩
noncomputable instance : One F32 := ⟨rnd 1⟩
noncomputable instance : Add F32 := ⟨add⟩
noncomputable instance : Sub F32 := ⟨sub⟩
noncomputable instance : Mul F32 := ⟨mul⟩
noncomputable instance : Div F32 := ⟨div⟩
noncomputable instance : Neg F32 := ⟨fun a => rnd (-a.val)⟩
noncomputable instance : LT F32 := ⟨fun a b => a.val < b.val⟩
noncomputable instance : DecidableLT F32 := fun a b => Classical.propDecidable (a.val < b.val)

theorem basic32 : BasicArith (F := F32) fmt acc := ⟨netArith.zero, addOk, subOk, mulOk⟩

end Emlearn.Flt.Binary32
