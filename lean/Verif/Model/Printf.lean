/-
`printf` as the logging macros of `rclcpp` and `rcutils` use it: the message is the format. Modelled
from the known definition of the macros and of the C library.
-/
import Verif.Basic

set_option autoImplicit false

namespace Verif

/-- `printf` with the given format and no further arguments. A conversion other than `%%` would use an
argument that does not exist, or is none, which is undefined. -/
def printf : List Char → Res (List Char)
  | [] => .ok []
  | c :: rest =>
    if c = '%' then
      match rest with
      | '%' :: rest' => do
        let s ← printf rest'
        .ok ('%' :: s)
      | _ => .error .undefinedBehaviour
    else do
      let s ← printf rest
      .ok (c :: s)

end Verif
