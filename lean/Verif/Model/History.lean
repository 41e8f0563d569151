/-
The messages that a subscription keeps until its callback runs, and those that a publisher keeps for
late readers (history and durability of the quality of service: `lib/.../qos.hpp` 34-37 and the
places cited in `Model/Launch.lean`).
-/
import Verif.Model.Launch

set_option autoImplicit false

namespace Verif.History

variable {M : Type}

/-- History (library): `KEEP_ALL` keeps all messages, `KEEP_LAST` with depth `d` the newest `d`. -/
def keep : Option Nat → List M → List M
  | none, l => l
  | some d, l => l.drop (l.length - d)

/-- A subscription: the messages that wait, oldest first, and those its callback was called with. -/
structure Reader (M : Type) where
  waiting : List M
  handled : List M

/-- A message arrives, or the executor takes the oldest message and runs the callback. -/
inductive Event (M : Type) where
  | arrive (m : M)
  | take

/-- One step of a subscription of depth `d` (library). Simplification: a message that was published is
put among the waiting ones at once; the transport itself loses, repeats and reorders nothing, which is
what it does if both ends are reliable and the publisher's own history suffices. -/
def step (d : Option Nat) (r : Reader M) : Event M → Reader M
  | .arrive m => { r with waiting := keep d (r.waiting ++ [m]) }
  | .take =>
    match r.waiting with
    | [] => r
    | m :: rest => ⟨rest, r.handled ++ [m]⟩

/-- A subscription from its beginning. -/
def run (d : Option Nat) (r : Reader M) (es : List (Event M)) : Reader M := es.foldl (step d) r

/-- What waits at a subscription `s` that is made after a publisher `p` has published `published`
(library): the messages stored by the publisher if both ends are transient local, otherwise nothing. -/
def late (p s : Launch.Endpoint) (published : List M) : List M :=
  if p.transientLocal && s.transientLocal then keep s.depth (keep p.depth published) else []

end Verif.History
