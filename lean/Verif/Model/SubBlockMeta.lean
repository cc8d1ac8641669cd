import Verif.Model.NumText

/-!
# The metadata of a sub-block (`SubblockMetadata.cpp`)

The document is represented by an element (the document node) with its children; `none` = the text could not be parsed.
-/

namespace Verif.Xml

/-- `GetChildNodeReadonly` of the document, and of a node of it, followed by the access to the node, SubblockMetadata.cpp:40-44 and XmlNodeWrapper.h:328-364; `.error` = the exception for
an invalid path, `.ok none` = null pointer. -/
def childAt (n : Node) (path : Str) : Except Unit (Option Node) :=
  match getChildNode n [] path with
  | .error e => .error e
  | .ok none => .ok none
  | .ok (some p) => .ok (n.at p)

/-- The node `METADATA/Tags` and below it the node for the name, SubblockMetadata.cpp:101-111, 119-129. -/
def tagNode (doc : Node) (name : Str) : Except Unit (Option Node) :=
  match childAt doc "METADATA/Tags".toList with
  | .error e => .error e
  | .ok none => .ok none
  | .ok (some tags) => childAt tags name

/-- `TryGetAttachmentDataFormat`, SubblockMetadata.cpp:86-96; `.error` = an exception, `none` = the function returns `false`. -/
def attachmentDataFormat (doc : Option Node) : Except Unit (Option Str) :=
  match doc with
  | none => .error ()
  | some d => match childAt d "METADATA/AttachmentSchema/DataFormat".toList with
    | .error e => .error e
    | .ok none => .ok none
    | .ok (some n) => .ok (tryGetValue n)

/-- `TryGetTagAsString`, SubblockMetadata.cpp:116-132. -/
def tagAsString (doc : Option Node) (name : Str) : Except Unit (Option Str) :=
  match doc with
  | none => .error ()
  | some d => match tagNode d name with
    | .error e => .error e
    | .ok none => .ok none
    | .ok (some n) => .ok (tryGetValue n)

/-- `TryGetTagAsDouble`, SubblockMetadata.cpp:98-114. -/
def tagAsDouble (doc : Option Node) (name : Str) : Except Unit (Read Num) :=
  match doc with
  | none => .error ()
  | some d => match tagNode d name with
    | .error e => .error e
    | .ok none => .ok .fails
    | .ok (some n) => .ok (tryGetDouble n)

/-- The values in `TryGetStagePositionFromTags`, SubblockMetadata.cpp:155-170: the first one is read first. -/
def bothNumbers (a b : Read Num) : Read (Num × Num) :=
  match a with
  | .fails => .fails
  | .hangs => .hangs
  | .value x => match b with
    | .fails => .fails
    | .hangs => .hangs
    | .value y => .value (x, y)

/-- `TryGetStagePositionFromTags`, SubblockMetadata.cpp:134-173. -/
def stagePosition (doc : Option Node) : Except Unit (Read (Num × Num)) :=
  match doc with
  | none => .error ()
  | some d => match tagNode d "StageXPosition".toList, tagNode d "StageYPosition".toList with
    | .ok (some x), .ok (some y) => .ok (bothNumbers (tryGetDouble x) (tryGetDouble y))
    | .error e, _ => .error e
    | .ok (some _), .error e => .error e
    | _, _ => .ok .fails

end Verif.Xml
