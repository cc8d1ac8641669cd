import Verif.Model.CApi
import Verif.Model.Blit

/-!
# The C interface: attachments, metadata and pixels (`libCZIApi.cpp`)

The checks of handles and null pointers are in `Model.CApiHandles`.
-/

namespace Verif.CApi

open Verif.Czi Verif.Blit

/-- `struct AddAttachmentInfoInterop`, add_attachment_info_interop.h:12-23. `data.size` is `size_attachment_data`. -/
structure AttInterop where
  guid : Vector UInt8 16
  contentFileType : Vector UInt8 8
  name : Vector UInt8 80
  data : Given

/-- The bytes the writer reads through a pointer with a size: for a null pointer with a size above 0 the writer throws (`.ok none`). -/
def taken (g : Given) : Outcome (Option (List UInt8)) :=
  match g.ptr with
  | none => if g.size = 0 then .ok (some []) else .ok none
  | some b => match memBytes b 0 g.size with
    | some l => .ok (some l)
    | none => .undefined

/-- `libCZI_WriterAddAttachment`, libCZIApi.cpp:1788-1821: the attachment that is passed to the writer. The GUID is copied byte by byte into the structure
(libCZIApi.cpp:1802), on a host with the least significant byte first. -/
def AttInterop.info (a : AttInterop) : Outcome AddAtt :=
  match taken a.data with
  | .ok d => .ok ⟨guidOf a.guid.toList, a.contentFileType, a.name, d⟩
  | .throws => .throws
  | .undefined => .undefined

/-- `libCZI_WriterWriteMetadata`, libCZIApi.cpp:1823-1849: the metadata passed to the writer, without attachment (`Clear`, libCZI_Write.h). `xml` are the
members `metadata` and `size_metadata` of `WriteMetadataInfoInterop`. -/
def metadataInfo (xml : Given) : Outcome MetaInfo := match taken xml with
  | .ok d => .ok ⟨d, some []⟩
  | .throws => .throws
  | .undefined => .undefined

/-- `struct AttachmentInfoInterop`, attachment_info_interop.h:12-20. The field for the type is given as the zero-terminated text in it. -/
structure AttInfoInterop where
  guid : List UInt8
  contentFileType : List UInt8
  name : Buf
  nameOverflow : Bool
  longName : Option (List UInt8)

/-- `CopyFromAttachmentInfoToAttachmentInfoInterop`, libCZIApi.cpp:50-67, into a structure whose name field is `old` (255 bytes). `none`: access outside
of the structure. Allocation succeeds. -/
def attInfoInterop (a : Attachment) (old : Buf) : Option AttInfoInterop :=
  (copyTruncate a.name old 255).map fun r => ⟨guidBytes a.guid, a.contentFileType, r.2, r.1, if r.1 then some a.name else none⟩

/-- The bytes of a block that was read: none for a null pointer. -/
def blockBytes (p : Payload) : List UInt8 := p.bytes.getD []

/-- `libCZI_MetadataSegmentGetMetadataAsXml`, libCZIApi.cpp:1118-1145, with the error for a null pointer (`.error`). -/
def xmlResult (m : MetaData) : Except Unit (Option (List UInt8 × Nat)) :=
  match m.xml.bytes with
  | none => .error ()
  | some raw => .ok (metadataAsXml raw)

/-- The loop of `libCZI_BitmapCopyTo`, libCZIApi.cpp:1093-1099: the memory `ptr` points to. `none`: access outside of it or of the bitmap. -/
def copyLines (b : Bitmap) (line stride : Nat) (dst : Buf) : Option Buf :=
  loop b.h (fun y d => d.memcpy (y * stride) b.buf (y * b.stride) line) dst

/-- `libCZI_BitmapCopyTo`, libCZIApi.cpp:1064-1103, for valid handles and pointers: `.error` is `InvalidArgument`. The bitmap has the pixel type `p`, whose
pixels have `bpp` bytes. `pixelType` is the number given by the caller. -/
def bitmapCopyTo (b : Bitmap) (p : PixelType) (bpp width height : Nat) (pixelType : Int) (stride : Nat) (dst : Buf) : Except Unit (Option Buf) :=
  if width ≠ b.w ∨ height ≠ b.h then .error ()
  else if pixelTypeValue p ≠ pixelType then .error ()
  else if stride < bpp * width then .error ()
  else .ok (copyLines b (bpp * width) stride dst)

end Verif.CApi
