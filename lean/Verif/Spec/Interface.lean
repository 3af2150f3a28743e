import Verif.Model.Interface

/-
Vocabulary for the metadata of the activity that calls a flow.
-/

namespace Flow
namespace Iface

variable {M : Type}

/-- The interfaces found so far, newest first. -/
def found (s : St M) : List (Option M) := s.lookups.filterMap (fun x => x)

/-- No goroutine is executing `Metadata`. -/
def Quiet (s : St M) : Prop := ∀ g, s.pc g = .idle

/-- The goroutine calls `GetFlowIOMetadata` or stores what it found. -/
def Determines (s : St M) (g : Nat) : Prop := s.pc g = .look ∨ (∃ m, s.pc g = .write m) ∨ s.pc g = .store

/-- `n` steps of one goroutine alone. -/
def alone (g : Nat) : Nat → St M → Option (St M)
  | 0, s => some s
  | n + 1, s => (step s (.go g)).bind (alone g n)

end Iface
end Flow
