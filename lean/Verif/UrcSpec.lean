import Verif.CStr
/-! # Specification vocabulary for the URC table (C19-C21) -/
namespace Cellular.Spec
open Cellular

/-- Byte-wise dictionary order. -/
def LexLt : Str → Str → Prop
  | _, [] => False
  | [], _ :: _ => True
  | a :: s, b :: t => a < b ∨ (a = b ∧ LexLt s t)

instance decLexLt : ∀ s t, Decidable (LexLt s t)
  | _, [] => by unfold LexLt; infer_instance
  | [], _ :: _ => by unfold LexLt; infer_instance
  | a :: s, b :: t => by
    unfold LexLt
    have := decLexLt s t
    infer_instance

end Cellular.Spec
