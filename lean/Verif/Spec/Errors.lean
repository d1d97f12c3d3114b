import Verif.Model.Errors
/-
Histories of a collector, as the caller sees them.  `History lo hi c rep` : `c` is the result of some
sequence of public calls, with every limit ever configured between `lo` and `hi`, and `rep` is the
list of errors the caller reported since the last `clear` (including those reported to merged-in
collectors), in report order.
-/
namespace Vroom

inductive History (lo hi : Nat) : Collector → List ParseErr → Prop
  | new (m : ErrMode) (n : Nat) (h : lo ≤ n ∧ n ≤ hi) : History lo hi (Collector.new m n) []
  | add {c rep} (e : ParseErr) : History lo hi c rep → History lo hi (c.addError e) (rep ++ [e])
  | setMode {c rep} (m : ErrMode) : History lo hi c rep → History lo hi (c.setMode m) rep
  | setMax {c rep} (n : Nat) (h : lo ≤ n ∧ n ≤ hi) : History lo hi c rep → History lo hi (c.setMax n) rep
  | clear {c rep} : History lo hi c rep → History lo hi c.clear []
  | merge {c o rc ro} : History lo hi c rc → History lo hi o ro → History lo hi (c.mergeFrom o) (rc ++ ro)
  | sort {c c' rep} : History lo hi c rep → Collector.SortedOf c c' → History lo hi c' rep

/-- The caller reported a fatal error. -/
def ReportedFatal (rep : List ParseErr) : Prop := ∃ e ∈ rep, e.severity = .fatal

end Vroom
