import Verif.Props.Value
import Verif.Props.Base
import Verif.Props.Bitmap
import Verif.Props.Numeric
import Verif.Props.Text
import Verif.Props.Guides
import Verif.Props.Ps
import Verif.Props.Options
import Verif.Props.Exact
import Verif.Props.Container
import Verif.Props.TrueType
import Verif.Props.Mm
import Verif.Props.GlyphEntries
import Verif.Props.Outline
import Verif.Props.Glyph
import Verif.Props.Merge
import Verif.Props.Table
import Verif.Props.NoData
import Verif.Props.SpecialSize
import Verif.Props.AnyFile
import Verif.Props.AnyFileTools
import Verif.Props.Terminate
import Verif.Props.UfoTime
import Verif.Props.UfoGroups
import Verif.Props.UfoKerning
import Verif.Props.UfoLabels
import Verif.Props.UfoHints
import Verif.Props.UfoPaths
import Verif.Props.UfoTth
import Verif.Props.UfoStems
import Verif.Props.Tth
import Verif.Props.TthLink
import Verif.Props.UfoGlyph
import Verif.Props.UfoGlyphBuild
import Verif.Props.VfbPens
import Verif.Props.VfbPensMasters
import Verif.Props.VfbDraw
import Verif.Props.VfbHints
import Verif.Props.UfoMasters
import Verif.Props.UfoDesign
import Verif.Props.UfoAxes
import Verif.Props.UfoFeatures
import Verif.Props.UfoClasses
import Verif.Props.UfoLib
import Verif.Props.UfoGuides
import Verif.Props.UfoMasterInfo
import Verif.Props.UfoCompat
import Verif.Props.UfoMasterGlyph
import Verif.Props.UfoConvert
import Verif.Props.UfoNames
import Verif.Props.Save
import Verif.Props.Yuri
import Verif.Props.Witnesses
import Verif.Props.Json
import Verif.Props.Cmdline
import Verif.Props.Encoding
import Verif.Props.EndToEnd
import Verif.Props.VfbSession
import Verif.Props.Cu2qu
import Verif.Props.UfoAsm
import Verif.Props.Diff
import Verif.Props.UfoSuccess
import Verif.Props.UfoSuccessTt
import Verif.Props.UfoSuccessAscii
import Verif.Props.UfoSuccessAll
import Verif.Props.UfoSuccessParts
import Verif.Props.UfoSuccessMasters
import Verif.Props.UfoSuccessFont
import Verif.Props.UfoSuccessCommand
import Verif.Props.TthSuccess
import Verif.Props.Commands
import Verif.Props.TthFile
import Verif.Props.AdobeHints
import Verif.Props.Build
import Verif.Props.Rework
import Verif.Props.MergeEntry
import Verif.Props.Mapping
import Verif.Model.Edit
import Verif.Spec.Edit
import Verif.Props.WriteRead
import Verif.Props.EditSize
import Verif.Props.EditLemmas
import Verif.Props.Edit
import Verif.Spec.UfoParts
import Verif.Props.UfoParts
import Verif.Props.DiffFiles
import Verif.Props.UfoHash
import Verif.Props.UfoIndep
import Verif.Props.UfoIndepFiles
import Verif.Props.SavedCopy
import Verif.Props.SavedAny
import Verif.Props.SegPen
