import Verif.Py.Basic
import Verif.Model.Utils
import Verif.Lemmas.Digits
import Verif.Lemmas.PyNum
import Verif.Lemmas.Codec
import Verif.Props.Codec
import Verif.Model.Cam
import Verif.Props.Cam
import Verif.Py.Regex
import Verif.Lemmas.Regex
import Verif.Model.GerberSplit
import Verif.Props.Split
import Verif.Py.Format
import Verif.Lemmas.Format
import Verif.Model.GerberStmt
import Verif.Model.GerberParse
import Verif.Lemmas.GerberParse
import Verif.Spec.GerberStmt
import Verif.Props.Parse
import Verif.Props.Include
import Verif.Model.Macro
import Verif.Spec.Macro
import Verif.Lemmas.Macro
import Verif.Props.Macro
import Verif.Lemmas.Capture
import Verif.Model.GerberEval
import Verif.Spec.GerberEval
import Verif.Lemmas.Parsed
import Verif.Props.Eval
import Verif.Model.GerberFile
import Verif.Props.File
import Verif.Props.Scale
import Verif.Model.Angle
import Verif.Props.Angle
import Verif.Model.Prim
import Verif.Props.Cache
import Verif.Props.Move
import Verif.Props.PrimUnits
import Verif.Spec.Shapes
import Verif.Props.Boxes
import Verif.Model.Hull
import Verif.Props.Hull
import Verif.Model.Rs274x
import Verif.Spec.Rs274x
import Verif.Props.Rs274x
import Verif.Props.Rs274xCodes
import Verif.Py.Dict
import Verif.Model.ExcellonStmt
import Verif.Model.ExcellonTool
import Verif.Model.Excellon
import Verif.Spec.Excellon
import Verif.Lemmas.Dict
import Verif.Lemmas.Excellon
import Verif.Lemmas.ExcellonCount
import Verif.Lemmas.ExcellonText
import Verif.Props.ExcellonHoles
import Verif.Lemmas.ExcellonUnits
import Verif.Props.ExcellonUnits
import Verif.Props.ExcellonDetect
import Verif.Lemmas.ExcellonTool
import Verif.Props.ExcellonStmts
import Verif.Lemmas.ExcellonWrite
import Verif.Props.ExcellonWrite
import Verif.Model.Layers
import Verif.Props.Layers
import Verif.Model.LayerGuess
import Verif.Props.LayerGuess
import Verif.Model.Render
import Verif.Props.Render
import Verif.Model.Ipc
import Verif.Props.Ipc
import Verif.Model.Load
import Verif.Props.Load
import Verif.Lemmas.Repr
import Verif.Model.AmPrim
import Verif.Spec.AmPrim
import Verif.Lemmas.AmPrim
import Verif.Props.AmPrim
import Verif.Model.ExcellonEdit
import Verif.Props.ExcellonEdit
import Verif.Props.BoxesMore
import Verif.Spec.ExcellonSettings
import Verif.Props.ExcellonSettings
import Verif.Spec.IpcRecord
import Verif.Props.IpcRecord
import Verif.Spec.ToolTable
import Verif.Props.ToolTable
import Verif.Props.ToolReport
import Verif.Model.SettingsFile
import Verif.Props.SettingsFile
import Verif.Model.ExcellonBackend
import Verif.Props.ExcellonBackend
import Verif.Model.Directory
import Verif.Props.Directory
import Verif.Spec.Netlist
import Verif.Props.Netlist
import Verif.Model.Vertices
import Verif.Props.Vertices
import Verif.Model.AmShape
import Verif.Spec.AmShape
import Verif.Props.AmShape
import Verif.Model.Theme
import Verif.Props.Theme
import Verif.Model.Cairo
import Verif.Spec.Cairo
import Verif.Props.CairoFrame
import Verif.Props.CairoClip
import Verif.Props.CairoLayer
import Verif.Props.CairoShape
import Verif.Props.CairoArea
import Verif.Model.Equiv
import Verif.Spec.Equiv
import Verif.Props.Equiv
import Verif.Props.EquivWrite
import Verif.Props.Rs274xOnly
import Verif.Props.Rs274xText
import Verif.Model.GroupWrite
import Verif.Props.GroupWrite
import Verif.Model.Report
import Verif.Props.Report
import Verif.Model.Main
import Verif.Props.Main
import Verif.Spec.ToolUse
import Verif.Lemmas.ToolUse
import Verif.Props.ToolUse
import Verif.Model.DrillPicture
import Verif.Spec.DrillPicture
import Verif.Props.DrillPicture
import Verif.Model.GerberPicture
import Verif.Spec.GerberPicture
import Verif.Props.GerberPicture
import Verif.Props.CairoArc
import Verif.Props.GerberPictureFail
import Verif.Model.MacroPicture
import Verif.Spec.MacroPicture
import Verif.Props.MacroPicture
import Verif.Props.MacroPictureFail
import Verif.Spec.Winding
import Verif.Props.Winding
import Verif.Props.CairoWinding
import Verif.Model.PrimHistory
import Verif.Props.StoredCorners
import Verif.Props.Enclosed
import Verif.Model.Operations
import Verif.Spec.Operations
import Verif.Props.Operations
import Verif.Props.OperationsDrill
import Verif.Props.MacroPaint
import Verif.Spec.Inverted
import Verif.Props.Inverted
import Verif.Model.LayerOrder
import Verif.Props.LayerOrder
import Verif.Spec.FromPart
import Verif.Props.FromPart
import Verif.Props.Quadrant
import Verif.Props.Center
import Verif.Props.QuadrantPicture
import Verif.Props.CairoHoles
import Verif.Props.Tight
import Verif.Props.TightFile
import Verif.Model.GerberSave
import Verif.Props.GerberSave
import Verif.Props.DrillSave
import Verif.Model.AmUnits
import Verif.Props.AmUnits
import Verif.Model.GerberConvert
import Verif.Props.GerberConvert
import Verif.Props.GerberMove
import Verif.Props.DrillMove
import Verif.Props.CairoSquareArc
import Verif.Lemmas.Written
import Verif.Props.GerberText
import Verif.Model.DrillOptimize
import Verif.Props.DrillOptimize
import Verif.Model.Corners
import Verif.Props.Corners
import Verif.Model.DrillBounds
import Verif.Props.DrillBounds
import Verif.Props.Words
import Verif.Props.DrillRemarks
import Verif.Props.Layout
import Verif.Props.DrillWords
import Verif.Props.GerberNumbers
import Verif.Props.SameText
import Verif.Model.ToolEquiv
import Verif.Props.ToolEquiv
import Verif.Model.IpcLists
import Verif.Props.IpcLists
import Verif.Props.Renaming
import Verif.Props.ToolNumbers
import Verif.Props.Append
import Verif.Props.MoveConvert
import Verif.Props.NetlistAppend
import Verif.Model.GerberComments
import Verif.Props.GerberComments
import Verif.Props.CommentInserted
import Verif.Audit
