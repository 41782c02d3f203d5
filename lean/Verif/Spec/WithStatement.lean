import Verif.Model.WithStatement
/-! What the end of `with` statements should do. -/
namespace Imageio.WithStatement.Spec

/-- The error that the user should see: the first error that happened.  The errors in the order
they happen are: the one of the body, then of closing from the innermost object to the outermost. -/
def first (stack : List (Manager × Option Exc)) (body : Option Exc) : Option Exc :=
  (body :: (stack.reverse.map Prod.snd)).findSome? id

/-- The classes that promise not to hide an error ("Do not hide the original error"). -/
def promising : List Manager :=
  [.fileBackend, .nbdBackend, .httpBackend, .memoryBackend, .imageioClient, .executor]

end Imageio.WithStatement.Spec
