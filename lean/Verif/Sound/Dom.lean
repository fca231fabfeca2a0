import Verif.Sound.Model

/-!
# Model of `Record.getDom` (`multimodal/db/models/sound.py`)
-/

namespace Verif.Sound

variable {S I : Type}

/-- Nodes of an XML document under construction: elements with attributes and children, texts.  The value of an
attribute may be `None` (`setAttribute` does not check it). -/
inductive Elt (S : Type)
  | elem (name : String) (attrs : Dict String (Option S)) (children : List (Elt S))
  | text (data : S)

/-- `doc.createTextNode(s)`: `TypeError` for `None`. -/
def createText : Option S → Py (Elt S)
  | none => .error .typeError
  | some s => .ok (.text s)

/-- `Record.getDom` (`/repo/multimodal/db/models/sound.py:61-77`). -/
def getDom (d : DB S I) (r : Rec S) : Py (Elt S) := do
  let audio ← createText r.audio
  let trans ← createText r.trans
  let names ← tagNames d r
  return .elem "record" [("style", r.style)]
    ([.elem "audio" [] [audio], .elem "trans" [] [trans]] ++ names.map fun n => .elem "tag" [("name", some n)] [])

end Verif.Sound
