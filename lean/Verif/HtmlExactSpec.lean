import Verif.HtmlTreeSpec
/-!
# Specification vocabulary for C89: how a tree is written as HTML

Together with `HtmlTreeSpec` this says character by character what the HTML of a document is.
Nothing here refers to the renderer.
-/
set_option autoImplicit false
namespace Verif
namespace Html

mutual
/-- A node as HTML text.  Every element has a closing tag, attributes are written in order and
between double quotes, and the special characters in texts and in values are written as references.
There is no layout: no character is added between the nodes. -/
def Node.write : Node → Str
  | .char c => encode [c]
  | .el name attrs children =>
    cs!"<" ++ name ++ (attrs.flatMap fun a => cs!" " ++ a.1 ++ cs!"=\"" ++ encode a.2 ++ cs!"\"") ++
      cs!">" ++ Html.writeNodes children ++ cs!"</" ++ name ++ cs!">"
  | .raw s => s
termination_by structural n => n
/-- Nodes as HTML text. -/
def writeNodes : List Node → Str
  | [] => []
  | n :: l => n.write ++ writeNodes l
termination_by structural l => l
end

/-- The title of an alert.  The name of a custom one is written as it is. -/
def titleRaw : AlertType → List Node
  | .custom s => [.raw s]
  | t => titleNodes t

end Html
end Verif
