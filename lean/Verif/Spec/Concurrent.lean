import Verif.Model.Concurrent
import Verif.Spec.Chain

/-! # Specification of reading while another thread writes -/

namespace Bitcoinx.Spec

/-- The moments of an object from the state `s` on, while one thread calls `connect` (whatever the outcome) and `set_one`
any number of times, under the conditions of `Reachable`; and the moment reached. -/
inductive Trace (cp : CheckPoint) (S : Bytes → Prop) (s : Headers) : List Moment → Moment → Prop
  | now (g : Nat) : Trace cp S s [⟨s, false, g⟩] ⟨s, false, g⟩
  | connect {ms : List Moment} {m : Moment} {raw : Bytes} : Trace cp S s ms m → S raw → Room m.state →
      Trace cp S s (ms ++ m.connect_moments raw) (m.last (m.connect_moments raw))
  | set_one {ms : List Moment} {m : Moment} {height : Int} {raw : Bytes} : Trace cp S s ms m →
      (height = cp.height → raw = cp.raw_header) →
      Trace cp S s (ms ++ [{ m with state := (m.state.set_one height raw).1 }])
        { m with state := (m.state.set_one height raw).1 }

/-- The file was enlarged while the accesses were made. -/
def Enlarged (w : Nat → Moment) : Prop := ∃ k, (w k).closed = true ∨ (w k).mapping ≠ (w (k + 1)).mapping

end Bitcoinx.Spec
