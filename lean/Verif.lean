import Verif.Proofs.Str
import Verif.Proofs.Dict
import Verif.Model.Filenames
import Verif.Proofs.Filenames
import Verif.Props.Filenames
import Verif.Props.Kerning
import Verif.Props.Converters
import Verif.Props.KerningReader
import Verif.Props.PointPens
import Verif.Proofs.Num
import Verif.Props.Plist
import Verif.Props.Xml
import Verif.Props.PlistFile
import Verif.Props.Validators
import Verif.Props.FontInfo
import Verif.Props.Glif
import Verif.Props.GlifRoundTrip
import Verif.Props.GlifFormat1
import Verif.Props.GlifScan
import Verif.Props.GlyphSet
import Verif.Props.UfoVersion
import Verif.Props.UfoLayers
import Verif.Props.UfoData
import Verif.Props.UfoPath
import Verif.Props.UfoGlyphs
import Verif.Props.UfoImages
import Verif.Props.UfoUnchanged
import Verif.Proofs.GlifSame
import Verif.Model.GlifFile
import Verif.Proofs.GlifText
import Verif.Props.GlifText
import Verif.Model.LayerInfo
import Verif.Spec.LayerInfo
import Verif.Proofs.LayerInfo
import Verif.Props.LayerInfo
import Verif.Proofs.UfoKerning
import Verif.Props.UfoKerning
import Verif.Props.UfoInfo
import Verif.Model.UfoZip
import Verif.Proofs.UfoZip
import Verif.Props.UfoZip
import Verif.Props.UfoFont
import Verif.Props.UfoRename
import Verif.Props.PlistRead
import Verif.Props.UfoUpgrade
import Verif.Props.GlifRewrite
import Verif.Props.Crash
import Verif.Props.Copy
import Verif.Props.Draw
import Verif.Props.ReverseDraw
import Verif.Props.Redraw
import Verif.Props.UfoCopy
import Verif.Props.UfoCopyFrom
import Verif.Props.UfoFiles
import Verif.Props.Errors
import Verif.Props.Relax
import Verif.Props.UfoSettled
import Verif.Props.UfoOld
import Verif.Props.UfoOpening
import Verif.Props.UfoRemove
import Verif.Spec.Numerals
import Verif.Proofs.Numerals
import Verif.Spec.GlifMeaning
import Verif.Proofs.GlifMeaning
import Verif.Proofs.GlifMeaningGlyph
import Verif.Proofs.GlifMeaningRead
import Verif.Proofs.XmlDistinct
import Verif.Props.GlifMeaning
import Verif.Spec.PlistMeaning
import Verif.Proofs.PlistMeaning
import Verif.Props.PlistMeaning
import Verif.Spec.InfoLegal
import Verif.Proofs.InfoLegal
import Verif.Proofs.InfoSince
import Verif.Props.InfoLegal
import Verif.Spec.UfoMeaning
import Verif.Proofs.UfoMeaning
import Verif.Props.UfoMeaning
import Verif.Py.PlVal
import Verif.Model.PlistOptions
import Verif.Spec.PlistOptions
import Verif.Proofs.PlistOptions
import Verif.Props.PlistOptions
import Verif.Model.UfoShared
import Verif.Spec.UfoShared
import Verif.Proofs.UfoShared
import Verif.Props.UfoShared
import Verif.Model.UfoMethods
import Verif.Proofs.UfoMethods
import Verif.Props.UfoMethods
import Verif.Model.PathNames
import Verif.Spec.PathNames
import Verif.Proofs.PathNames
import Verif.Proofs.Tree
import Verif.Proofs.PathNamesFrame
import Verif.Props.PathNames
import Verif.Spec.Tree
import Verif.Proofs.TreeCalls
import Verif.Props.Tree
import Verif.Model.FileObjects
import Verif.Spec.FileObjects
import Verif.Proofs.FileObjects
import Verif.Props.FileObjects
import Verif.Model.Aliases
import Verif.Props.Aliases
import Verif.Model.GlifPen
import Verif.Spec.GlifPen
import Verif.Props.GlifPen
import Verif.Model.PenStack
import Verif.Spec.PenStack
import Verif.Props.PenStack
import Verif.Model.SegmentDraw
import Verif.Spec.SegmentDraw
import Verif.Props.SegmentDraw
import Verif.Model.Expat
import Verif.Spec.Cut
import Verif.Proofs.ExpatOnline
import Verif.Proofs.ExpatWhole
import Verif.Proofs.Cut
import Verif.Props.Cut
import Verif.Props.CutScan
import Verif.Spec.Interrupt
import Verif.Proofs.Interrupt
import Verif.Props.Interrupt
import Verif.Proofs.InterruptAgain
import Verif.Props.InterruptAgain
import Verif.Spec.Edit
import Verif.Proofs.Edit
import Verif.Props.Edit
import Verif.Spec.Order
import Verif.Proofs.Order
import Verif.Proofs.OrderWrite
import Verif.Proofs.OrderGlyph
import Verif.Props.Order
import Verif.Spec.Reorder
import Verif.Proofs.Reorder
import Verif.Props.Reorder
import Verif.Spec.Restart
import Verif.Proofs.Restart
import Verif.Proofs.RestartRun
import Verif.Proofs.RestartRead
import Verif.Proofs.RestartFiles
import Verif.Props.Restart
import Verif.Model.PlistPaths
import Verif.Spec.PlistPaths
import Verif.Props.PlistPaths
import Verif.Model.Times
import Verif.Spec.Times
import Verif.Proofs.Times
import Verif.Props.Times
import Verif.Model.UfoWith
import Verif.Spec.UfoWith
import Verif.Props.UfoWith
import Verif.Model.FsObjects
import Verif.Spec.FsObjects
import Verif.Props.FsObjects
import Verif.Model.Faults
import Verif.Proofs.Faults
import Verif.Props.Faults
import Verif.Model.ReaderMethods
import Verif.Proofs.ReaderMethods
import Verif.Props.ReadFaults
import Verif.Spec.ReadMoments
import Verif.Proofs.ReadMoments
import Verif.Props.ReadMoments
import Verif.Model.MoveSteps
import Verif.Spec.MoveSteps
import Verif.Proofs.MoveSteps
import Verif.Props.MoveSteps
import Verif.Model.ZipClose
import Verif.Props.ZipClose
import Verif.Model.Walk
import Verif.Proofs.Walk
import Verif.Props.Walk
import Verif.Model.LayerShared
import Verif.Spec.LayerShared
import Verif.Proofs.LayerShared
import Verif.Proofs.LayerTurns
import Verif.Props.LayerShared
import Verif.Model.CopyWithin
import Verif.Proofs.CopyWithin
import Verif.Props.CopyWithin
import Verif.Model.GlyphObjects
import Verif.Proofs.GlyphObjects
import Verif.Props.GlyphObjects
import Verif.Model.ReadInto
import Verif.Proofs.ReadInto
import Verif.Props.ReadInto
import Verif.Model.InfoObjects
import Verif.Proofs.InfoObjects
import Verif.Props.InfoObjects
import Verif.Model.UpdateFiles
import Verif.Spec.UpdateFiles
import Verif.Proofs.UpdateFiles
import Verif.Props.UpdateFiles
import Verif.Spec.OrderRelaxed
import Verif.Proofs.OrderRelaxed
import Verif.Props.OrderRelaxed
import Verif.Model.LayerInfoObjects
import Verif.Proofs.LayerInfoObjects
import Verif.Props.LayerInfoObjects
import Verif.Model.TextFiles
import Verif.Spec.TextFiles
import Verif.Proofs.TextFiles
import Verif.Props.TextFiles
