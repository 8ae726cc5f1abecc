import Verif.Model.MapFiles
/-
The program is ended from outside (signal, memory, a failing check in another thread) while it saves:
builder/map_builder.cc:596-612 (order of saving), 807-814, builder/map_package.cc:199-227.  Files are opened for
writing under their final names; nothing is renamed, removed or flushed to the device.
-/
namespace Verif

/-- One file that is saved: its name and its contents. -/
abbrev FileWrite := List Char × DiskFile

/-- What may be stored under the name while the file is written.  `xml_document::save_file`
(third_parties/pugixml/pugixml.cc:7187-7193) opens with "wb", which empties the file, and appends: a beginning of the
text.  PCL's writer makes a file of the final size and copies into it: nothing is said about the contents. -/
def PartlyWritten : DiskFile → DiskFile → Prop
  | .text s, g => ∃ p, p <+: s ∧ g = .text p
  | .cloud _, _ => True

/-- All files are saved, one after the other. -/
def allWritten (d : Disk) (ws : List FileWrite) : Disk := ws.foldl (fun d w => d.write w.1 w.2) d

/-- `d'` is a state in which the disk can be left when the program ends while it saves the files `ws`. -/
def KilledWhile (d : Disk) : List FileWrite → Disk → Prop
  | [], d' => d' = d
  | w :: ws, d' => d' = d ∨ (∃ g, PartlyWritten w.2 g ∧ d' = d.write w.1 g) ∨ KilledWhile (d.write w.1 w.2) ws d'

/-- map_package.cc:199-206 for every piece in turn, then 226-227. -/
def packageWrites (path descr : List Char) (pkg : Package) : List FileWrite :=
  pkg.pieces.map (fun p => (path ++ p.file, .cloud p.cloud)) ++ [(path ++ descr, .text (saveXml (packageDoc pkg.description)))]

/-- map_builder.cc:813. -/
def mapWrites (file : List Char) (l : List TrajPkg) : List FileWrite := [(file, .text (saveXml (mapDoc l)))]

/-- The power fails: of the files saved, the device may have kept any, or what was there before (no `fsync` anywhere). -/
def PowerCut (d : Disk) (ws : List FileWrite) (d' : Disk) : Prop :=
  ∀ n, d' n = d n ∨ ∃ w ∈ ws, w.1 = n ∧ d' n = some w.2

end Verif
