import Verif.Props.Alphabet
import Verif.Props.Names
import Verif.Props.Geometry
import Verif.Props.Cell
import Verif.Props.Grid
import Verif.Props.GridMerge
import Verif.Props.Heap
import Verif.Props.Table
import Verif.Props.Drawing
import Verif.Props.Units
import Verif.Props.Xml
import Verif.Props.CalsStyles
import Verif.Props.CalsBuilder
import Verif.Props.CalsParser
import Verif.Props.CalsRoundTrip
import Verif.Props.FormexRow
import Verif.Model.FormexParser
import Verif.Props.FormexBlocks
import Verif.Props.FormexNumbers
import Verif.Props.FormexTypes
import Verif.Props.OoxmlStyles
import Verif.Props.OoxmlMerge
import Verif.Props.Converter
import Verif.Props.CalsLooks
import Verif.Props.OoxmlLooks
import Verif.Props.FormexBuilder
import Verif.Props.FormexRoundTrip
import Verif.Props.FormexDoc
import Verif.Props.CalsDoc
import Verif.Props.CalsRefused
import Verif.Props.OoxmlSpacing
import Verif.Props.FormexLooks
import Verif.Props.FormexText
import Verif.Props.FormexAttrs
import Verif.Spec.Order
import Verif.Lemmas.Order
import Verif.Lemmas.ParsedOrder
import Verif.Lemmas.ParsedReachable
import Verif.Props.ParsedOrder
import Verif.Model.Formex2Cals
import Verif.Spec.Formex2Cals
import Verif.Lemmas.FormexTwin
import Verif.Props.FormexNested
import Verif.Props.Formex2Cals
import Verif.Spec.Conversion
import Verif.Lemmas.CalsWritten
import Verif.Lemmas.Conversion
import Verif.Props.Conversion
import Verif.Spec.Writable
import Verif.Lemmas.Writable
import Verif.Props.Writable
import Verif.Lemmas.Demands
import Verif.Spec.Accepted
import Verif.Lemmas.Accepted
import Verif.Props.Accepted
import Verif.Lemmas.FormexWritten
import Verif.Props.ToFormex
import Verif.Props.FormexFinalised
import Verif.Spec.ThereAndBack
import Verif.Props.ThereAndBack
import Verif.Spec.Document
import Verif.Lemmas.Document
import Verif.Props.Document
import Verif.Spec.CalsLooks
import Verif.Lemmas.CalsTold
import Verif.Props.CalsTold
import Verif.Spec.LooksKept
import Verif.Lemmas.LooksKept
import Verif.Props.LooksKept
import Verif.Spec.FormexKept
import Verif.Lemmas.FormexKept
import Verif.Props.FormexKept
import Verif.Spec.WordKept
import Verif.Lemmas.WordKept
import Verif.Props.WordKept
import Verif.Model.ConvertFile
import Verif.Spec.Files
import Verif.Props.Files
import Verif.Spec.FormexDocument
import Verif.Props.FormexDocument
import Verif.Spec.Inner
import Verif.Props.WordInner
import Verif.Spec.EndToEnd
import Verif.Props.EndToEnd
import Verif.Spec.Twice
import Verif.Props.Twice
import Verif.Spec.Again
import Verif.Props.Again
import Verif.Spec.TwiceFiles
import Verif.Props.TwiceFiles
import Verif.Spec.Origin
import Verif.Lemmas.Origin
import Verif.Props.Origin
import Verif.Model.Namespaces
import Verif.Spec.Namespaces
import Verif.Props.Namespaces
import Verif.Model.Views
import Verif.Spec.Views
import Verif.Lemmas.Views
import Verif.Props.Views
import Verif.Spec.FormexNotes
import Verif.Lemmas.FormexNotes
import Verif.Lemmas.NotesRows
import Verif.Props.NotesRows
import Verif.Model.Digits
import Verif.Spec.Digits
import Verif.Lemmas.Digits
import Verif.Spec.Alike
import Verif.Lemmas.Alike
import Verif.Props.Integers
import Verif.Props.Alike
import Verif.Spec.WordAlike
import Verif.Lemmas.WordAlike
import Verif.Spec.CalsSchema
import Verif.Lemmas.CalsSchema
import Verif.Props.CalsSchema
import Verif.Spec.CalsRagged
import Verif.Lemmas.Ragged
import Verif.Lemmas.CalsRagged
import Verif.Lemmas.CalsPlaces
import Verif.Props.CalsRagged
import Verif.Spec.RaggedPicture
import Verif.Props.RaggedToFormex
import Verif.Spec.FormexRagged
import Verif.Lemmas.FormexRagged
import Verif.Props.FormexRagged
import Verif.Lemmas.RowEnd
import Verif.Spec.WordShort
import Verif.Spec.WordShortPicture
import Verif.Props.WordShort
import Verif.Props.RaggedToCals
import Verif.Props.WordShortFormex
import Verif.Spec.OnePlacement
import Verif.Props.OnePlacement
import Verif.Props.FormexPlaces
import Verif.Props.WordShortAccepted
import Verif.Props.RaggedAccepted
import Verif.Model.Printing
import Verif.Spec.Printing
import Verif.Props.Printing
