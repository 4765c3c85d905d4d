import Verif.Lemmas.Animated
import Verif.Lemmas.Ansi
import Verif.Lemmas.Binary64
import Verif.Lemmas.Block
import Verif.Lemmas.Buffer
import Verif.Lemmas.CassoAdd
import Verif.Lemmas.CassoBland
import Verif.Lemmas.CassoComplete
import Verif.Lemmas.CassoCreate
import Verif.Lemmas.CassoHist
import Verif.Lemmas.CassoOpt
import Verif.Lemmas.CassoRow
import Verif.Lemmas.CassoTab
import Verif.Lemmas.CassoVal
import Verif.Lemmas.Cells
import Verif.Lemmas.Chance
import Verif.Lemmas.Combinations
import Verif.Lemmas.Confined
import Verif.Lemmas.Control
import Verif.Lemmas.Diff
import Verif.Lemmas.DiffGrid
import Verif.Lemmas.Disjoint
import Verif.Lemmas.Draw
import Verif.Lemmas.Drawable
import Verif.Lemmas.Exchange
import Verif.Lemmas.Fair
import Verif.Lemmas.Fast
import Verif.Lemmas.FastLoop
import Verif.Lemmas.FastOk
import Verif.Lemmas.FieldCells
import Verif.Lemmas.Filling
import Verif.Lemmas.Flex
import Verif.Lemmas.FloatAdd
import Verif.Lemmas.FloatFast
import Verif.Lemmas.FloatFastOk
import Verif.Lemmas.FloatLayout
import Verif.Lemmas.FloatRow
import Verif.Lemmas.FloatRun
import Verif.Lemmas.FloatSplit
import Verif.Lemmas.FloatStep
import Verif.Lemmas.FloatTidy
import Verif.Lemmas.Fuel
import Verif.Lemmas.Grow
import Verif.Lemmas.Input
import Verif.Lemmas.InputExample
import Verif.Lemmas.InputField
import Verif.Lemmas.InputPaste
import Verif.Lemmas.InputText
import Verif.Lemmas.IntTab
import Verif.Lemmas.Integral
import Verif.Lemmas.Layout
import Verif.Lemmas.Lazygit
import Verif.Lemmas.LazygitFrame
import Verif.Lemmas.LazygitLayout
import Verif.Lemmas.LazygitPanel
import Verif.Lemmas.LenFill
import Verif.Lemmas.ListExample
import Verif.Lemmas.ListWidget
import Verif.Lemmas.Marks
import Verif.Lemmas.Modifier
import Verif.Lemmas.Page
import Verif.Lemmas.Palette
import Verif.Lemmas.Paragraph
import Verif.Lemmas.ParagraphLine
import Verif.Lemmas.Quick
import Verif.Lemmas.QuickOk
import Verif.Lemmas.Reflow
import Verif.Lemmas.Rename
import Verif.Lemmas.Repaints
import Verif.Lemmas.Rounding
import Verif.Lemmas.Scan
import Verif.Lemmas.Shares
import Verif.Lemmas.Side
import Verif.Lemmas.Single
import Verif.Lemmas.Slices
import Verif.Lemmas.Split
import Verif.Lemmas.Tabs
import Verif.Lemmas.Terminal
import Verif.Lemmas.Text
import Verif.Lemmas.TextRow
import Verif.Lemmas.ThrobberExample
import Verif.Lemmas.Tight
import Verif.Lemmas.Tiling
import Verif.Lemmas.TitleRow
import Verif.Lemmas.TitledBox
import Verif.Lemmas.Titles
import Verif.Lemmas.Vertex
import Verif.Lemmas.Whole
import Verif.Lemmas.WideRows
import Verif.Lemmas.WideText
import Verif.Lemmas.Words
import Verif.Lemmas.Wrapped
import Verif.Lemmas.Yield
import Verif.Model.Ansi
import Verif.Model.App
import Verif.Model.Backend
import Verif.Model.Block
import Verif.Model.Buffer
import Verif.Model.Builders
import Verif.Model.Casso
import Verif.Model.Clear
import Verif.Model.Console
import Verif.Model.Float
import Verif.Model.Gauge
import Verif.Model.Geometry
import Verif.Model.Input
import Verif.Model.InputExample
import Verif.Model.InputField
import Verif.Model.Layout
import Verif.Model.Lazygit
import Verif.Model.ListExample
import Verif.Model.ListWidget
import Verif.Model.Mouse
import Verif.Model.Paragraph
import Verif.Model.Popup
import Verif.Model.RawMode
import Verif.Model.Reflow
import Verif.Model.Resize
import Verif.Model.Scroll
import Verif.Model.Slices
import Verif.Model.Splitted
import Verif.Model.Style
import Verif.Model.Tabs
import Verif.Model.Terminal
import Verif.Model.Text
import Verif.Model.Throbber
import Verif.Model.ThrobberExample
import Verif.Model.Uniseg
import Verif.Model.Utf8
import Verif.Model.Variables
import Verif.Props.Aligned
import Verif.Props.AlmostSurely
import Verif.Props.Animated
import Verif.Props.Ansi
import Verif.Props.App
import Verif.Props.AppAnimated
import Verif.Props.AppCancelled
import Verif.Props.AppCommands
import Verif.Props.AppExit
import Verif.Props.AppLive
import Verif.Props.AppOrigins
import Verif.Props.AppPanic
import Verif.Props.Block
import Verif.Props.Buffer
import Verif.Props.Builders
import Verif.Props.Casso
import Verif.Props.Cells
import Verif.Props.Clear
import Verif.Props.Colours
import Verif.Props.Combinations
import Verif.Props.Console
import Verif.Props.Control
import Verif.Props.Corner
import Verif.Props.Diff
import Verif.Props.Fair
import Verif.Props.FieldCells
import Verif.Props.Filling
import Verif.Props.Fills
import Verif.Props.Flex
import Verif.Props.Float
import Verif.Props.Fresh
import Verif.Props.Gaps
import Verif.Props.Gauge
import Verif.Props.Geometry
import Verif.Props.Gestures
import Verif.Props.Grow
import Verif.Props.Input
import Verif.Props.InputExample
import Verif.Props.InputField
import Verif.Props.InputRow
import Verif.Props.Keys
import Verif.Props.Layout
import Verif.Props.Lazygit
import Verif.Props.Lines
import Verif.Props.ListAgain
import Verif.Props.ListExample
import Verif.Props.ListWidget
import Verif.Props.Live
import Verif.Props.Marks
import Verif.Props.Menu
import Verif.Props.Modifier
import Verif.Props.MouseNames
import Verif.Props.Page
import Verif.Props.Palette
import Verif.Props.Paragraph
import Verif.Props.Popup
import Verif.Props.RawMode
import Verif.Props.Reached
import Verif.Props.Reflow
import Verif.Props.Reproducible
import Verif.Props.Resize
import Verif.Props.Rounding
import Verif.Props.Scroll
import Verif.Props.Scrolling
import Verif.Props.SetString
import Verif.Props.Side
import Verif.Props.Single
import Verif.Props.Slices
import Verif.Props.SlicesField
import Verif.Props.Splitted
import Verif.Props.Style
import Verif.Props.Tabs
import Verif.Props.Terminal
import Verif.Props.Termination
import Verif.Props.Text
import Verif.Props.TextLines
import Verif.Props.Throbber
import Verif.Props.ThrobberExample
import Verif.Props.TitledFrame
import Verif.Props.Titles
import Verif.Props.Typed
import Verif.Props.Typing
import Verif.Props.Unwrapped
import Verif.Props.Variables
import Verif.Props.Watched
import Verif.Props.WideScreen
import Verif.Props.WideText
import Verif.Props.Wrapped
import Verif.Spec.Animated
import Verif.Spec.App
import Verif.Spec.AppLive
import Verif.Spec.Block
import Verif.Spec.Cells
import Verif.Spec.Commands
import Verif.Spec.Console
import Verif.Spec.Control
import Verif.Spec.Corner
import Verif.Spec.Filling
import Verif.Spec.Flex
import Verif.Spec.Float
import Verif.Spec.Frame
import Verif.Spec.Gauge
import Verif.Spec.Gestures
import Verif.Spec.Grow
import Verif.Spec.Input
import Verif.Spec.InputExample
import Verif.Spec.InputField
import Verif.Spec.Keys
import Verif.Spec.Layout
import Verif.Spec.Lazygit
import Verif.Spec.Linear
import Verif.Spec.ListExample
import Verif.Spec.ListWidget
import Verif.Spec.Live
import Verif.Spec.Marks
import Verif.Spec.Menu
import Verif.Spec.Nested
import Verif.Spec.Page
import Verif.Spec.Palette
import Verif.Spec.Paragraph
import Verif.Spec.RawMode
import Verif.Spec.Reflow
import Verif.Spec.Resize
import Verif.Spec.Screen
import Verif.Spec.Scroll
import Verif.Spec.Settings
import Verif.Spec.Side
import Verif.Spec.Slices
import Verif.Spec.Tabs
import Verif.Spec.Terminal
import Verif.Spec.Text
import Verif.Spec.TextLines
import Verif.Spec.Throbber
import Verif.Spec.ThrobberExample
import Verif.Spec.Typing
import Verif.Spec.Unwrapped
import Verif.Spec.Watched
import Verif.Spec.WideText
import Verif.Spec.Widget
import Verif.Tests.Layout
import Verif.Tests.Widgets
