import Verif.Spec.Order

/-! # Specification of hearing headers from several sources -/

namespace Bitcoinx.Spec

/-- The headers are given to `connect` one after the other, whatever becomes of each. -/
inductive Hears : Headers → List Bytes → Headers → Prop
  | nil {s : Headers} : Hears s [] s
  | cons {s s1 s2 : Headers} {raw : Bytes} {r : Res (Header × Nat)} {rest : List Bytes} :
      s.connect raw = (s1, r) → Hears s1 rest s2 → Hears s (raw :: rest) s2

end Bitcoinx.Spec
