p("C58", "The solver refuses only contradictions",
  "AddConstraint returns an error only when the required constraints added so far together with the new one have no common solution; it always returns one when they have none.",
  "all constraint sequences, all map iteration orders",
  "Completeness of phase-one simplex over all systems and pivot orders.",
  ["internal/casso/solver.go:Solver.AddConstraint", "internal/casso/solver.go:Solver.addWithArtificialVariable"])
p("C59", "FetchChanges reports exactly the changes",
  "FetchChanges returns one entry for each variable whose value differs from the last reported one, with its current value, and nothing else.",
  "all solver histories and all numbers of FetchChanges calls",
  "History dependent; the layout code only ever calls it once.",
  ["internal/casso/solver.go:Solver.FetchChanges"])
p("C60", "Lengths are honoured exactly when they fit",
  "In a FlexLegacy layout without spacing whose constraints are Len and Fill, where the lengths fit into the padded area and a Fill takes up the rest (or nothing is left), every Len(t) segment is exactly t cells long, whatever the fractions the fills end on.",
  "all such constraint lists (sum of fill weights at most 90000), all areas at non-negative coordinates, all solver iteration orders",
  "Optimality of the solver plus rounding: tests see a handful of sizes.",
  ["layout.go:configureConstraints", "layout.go:configureFillConstraints", "layout.go:changesToRects"])
p("C61", "Fills share the free space in proportion to their weights",
  "In a FlexLegacy layout without spacing of Len and Fill constraints whose lengths fit, every segment edge lies within 0.505 cells of the exact position obtained by giving each length what it asks for and sharing the rest among the fills in proportion to their weights.",
  "all such constraint lists (sum of fill weights at most 90000), all areas, all solver iteration orders",
  "Unbounded weights and sizes; global optimum.",
  ["layout.go:configureFillConstraints", "layout.go:getScalingFactor", "layout.go:changesToRects"])
p("C62", "Focus reports are delivered",
  "Whenever the terminal reports that it gained or lost focus, a FocusMsg or BlurMsg is delivered, whatever other input arrives in the same read.",
  "all inputs containing a focus report",
  "Depends on what happens to share a read with the report.",
  ["input.go:detectReportFocus", "input.go:detectOneMsg"])
p("C63", "A mouse report consumes only its own bytes",
  "Bytes are taken for a mouse report only when they are one: no other input is swallowed by the search for a report.",
  "all byte strings",
  "All byte strings around the introducer.",
  ["input.go:detectOneMsg", "input.go:mouseSGRRegex"])

p("C64", "Trimming treats every line alike",
  "With trimming on, the word wrapper drops the leading whitespace of every input line, not only of the first ones: an input line that fits is output without its leading whitespace.",
  "all inputs and widths",
  "Depends on state left over from earlier input lines.",
  ["internal/reflow/wrapper.go"])
p("C65", "A line's style is on its text",
  "A line's own style (for example its background) is applied to the cells that show its text, wherever the alignment puts them.",
  "all lines, alignments and areas",
  "All alignments with all text lengths.",
  ["widget/textwidget/line.go:Line.renderWithAlignment"])
p("C66", "An overlong line fills its row",
  "A line that is wider than its area shows a part of its text in every column of its row, at every alignment.",
  "all texts (any grapheme widths), alignments and areas",
  "All texts, including zero-width clusters such as tabs.",
  ["widget/textwidget/span.go:unicodeTruncateStart", "widget/textwidget/line.go:Line.renderWithAlignment"])
p("C67", "A block's border is a frame",
  "Rendering a block shows, on each cell of its area's edge, the border symbol that belongs to the sides (or corner) the cell lies on, and leaves the symbols of all other cells as they were; titles change nothing of this except between the side borders of the rows they are on.",
  "all blocks with and without titles, all border combinations, border sets, buffers and areas inside the buffer that are at least two cells wide and high (or one cell, if the two symbols that then coincide are the same); with titles, the area has a non-negative column",
  "All combinations of sides with all sizes.",
  ["widget/blockwidget/block.go:Block.renderBorders"])
p("C68", "A block's title is shown where it is asked for",
  "The only title of a block, if it fits between the side borders, is shown completely on the top or bottom row it is positioned on: at the start, in the middle or at the end of those columns according to its alignment (its own, else the block's).",
  "all blocks with one title of symbols of one or more columns and an alignment (the title's or the block's), all areas inside the buffer at a non-negative column and all border combinations",
  "All alignments, positions, border combinations and widths.",
  ["widget/blockwidget/block.go:Block.renderTitles"])
p("C69", "A wrapped line that fits takes one row",
  "Without trimming, the word wrapper leaves input lines that fit the width as they are: one row each, in order, with their alignment.",
  "all inputs and widths",
  "Depends on state left over from earlier input lines.",
  ["internal/reflow/wrapper.go"])
p("C70", "A paragraph shows the rows of its text",
  "A paragraph, with or without a block, shows the rows of its composed text one below the other in the area inside of the block, starting with the row at its vertical scroll offset, each at its alignment and in the style of the text over that of the paragraph; cells inside of the block that are not covered by text keep their symbols, the frame is as the block alone draws it, and no cell outside of the area changes.",
  "all areas inside of the buffer without negative coordinates and with at least one cell inside of the block, all blocks without negative padding, all scroll offsets that leave something of the area (non-negative ones do), all alignments, and all texts that can be laid out in the width: the rows of the composed text are aligned and no wider than the area, which is so without wrapping, and with wrapping if no grapheme is wider than a column and no word is wider than a row",
  "All texts, offsets and areas.",
  ["widget/paragraphwidget/paragraph.go:Paragraph.renderText", "widget/paragraphwidget/paragraph.go:Paragraph.Render"])
p("C71", "Text is shown in its style",
  "Every cell that shows a cluster of a line carries the style of the span the cluster comes from, applied over what the cell had before (and over the line's style where that was applied).",
  "all lines of single-width text, alignments, areas inside the buffer",
  "All splits of a text into spans with all alignments and cuts.",
  ["widget/textwidget/span.go:Span.Render", "widget/textwidget/line.go:Line.renderWithAlignment"])
p("C72", "A list shows its items one after the other with the selection marked",
  "Drawing a list changes only cells of its area. The visible items take consecutive rows in order (from the top or from the bottom); every row shows first the highlight symbol of the selected item or blanks, if there is a column for it, and then the line of the item at its alignment; the rows of the selected item get the highlight style last; other cells of the content area keep their symbols and get the list's style, and the state remembers the first visible item.",
  "all lists of text made of symbols of one or more columns with a single-width highlight symbol, all areas and buffers, all states with non-negative offset",
  "All item heights, directions, symbols, spacings and states.",
  ["widget/listwidget/list.go:List.RenderStateful", "widget/listwidget/state.go"])
p("C73", "A scrollbar is drawn on its strip",
  "Drawing a scrollbar changes only the cells of its strip: they show, in order, the begin symbol, the track before the thumb, the thumb, the track after it and the end symbol, each in its style and in the lengths that were computed for the parts.",
  "all scrollbars, symbols, states, and areas inside the buffer",
  "All lengths, positions and symbol sets.",
  ["widget/scrollwidget/scroll.go:Scroll.RenderStateful", "widget/scrollwidget/scroll.go:Scroll.barSymbols"])
p("C74", "A throbber shows its frames in turn, inside its area",
  "Drawing a throbber shows frame number (ticks accepted) modulo the number of frames, never panics for a non-empty set, and changes only cells of its area inside the buffer.",
  "all non-empty frame sets, states reached by ticks, areas, placements and non-negative paddings",
  "All sets and geometries; the counter is unbounded.",
  ["widget/throbberwidget/throbber.go:Throbber.RenderStateful", "widget/throbberwidget/set.go:Frame"])
p("C75", "No goroutine outlives Run for ever",
  "When Run has returned with the model of a quit or after a panic, its context is done and every goroutine it started that waits on a channel can take the ctx.Done() case and end; the goroutines that shutdown waits for have ended.",
  "all schedules, all programs, all ways Run returns",
  "Needs all interleavings; a leaked goroutine shows no effect in a test.",
  ["app.go:appRunner.Run", "app.go:appRunner.shutdown", "app.go:appRunner.handleCommands", "tty.go:appRunner.readLoop", "signals_unix.go:appRunner.listenForResize"])
p("C76", "An input field edits its text in place without damage",
  "Although the input field appends to prefixes of its grapheme slice while it still uses the rest of it, every key does to the text exactly what it does to a text that is copied, and drawing the field never changes its text.",
  "all texts, cursors, keys, and array capacities",
  "Whether a write hits a live element depends on lengths, cursor and capacities left by the whole history.",
  ["widget/inputwidget/state.go:State.deleteWhile", "widget/inputwidget/state.go:State.DeleteUnderCursor", "widget/inputwidget/state.go:State.Append", "widget/inputwidget/input.go:Input.split"])

p("C77", "The strip of tabs shows every title in order",
  "Tabs.Render writes from the left edge of the first row of the area: for every title the left padding, the title and the right padding, with the divider between two titles and none after the last; the title at the selected index, and only that, is in the highlight style; selecting an index that does not exist is the same as selecting none; what does not fit is cut off at the right edge.",
  "all titles, spans, dividers, paddings, styles, selections, areas and buffers",
  "The breaks inside the loop, the cutting at every column and the highlight depend on all widths together.",
  ["widget/tabswidget/tabs.go"])

p("C78", "Printing a line returns the column behind it",
  "Line.Print writes the spans of the line one after the other, each in the style of the line overlaid by its own style, changes at most maxWidth columns and only cells of the buffer, and returns the column behind the last one written.",
  "all lines, positions, widths and buffers",
  "Every split of a text into spans and every width has its own arithmetic for the remaining columns.",
  ["widget/textwidget/line.go"])

p("C79", "A buffer made of lines shows exactly the lines",
  "Lines.NewBuffer never panics; the buffer is as wide as the widest line and as high as the number of lines, every row shows its line from the left, and all other cells are blank.",
  "all lists of lines",
  "All texts and all splits into spans; a remaining width that is computed wrongly shows only for some of them.",
  ["widget/textwidget/line.go"])

p("C80", "The constraint solver comes to an end",
  "Adding constraints never gets trapped: whatever order the solver's maps have shown so far, it can still return, and when the orders are drawn independently it returns with probability one. The same holds for Split and SplitWithSpacers.",
  "all systems of constraints that need at most 255 solver symbols, all finite histories of map orders, all distributions in which the first candidate keeps a probability away from zero",
  "The loop has no bound and its picks depend on map iteration order; a test sees a few of the possible runs, and cycling of the simplex method shows only for degenerate systems under particular orders.",
  ["internal/casso/solver.go", "layout.go"])
p("C81", "Splitting the same area twice gives the same result",
  "Split and SplitWithSpacers are functions of the layout and the area: calling them again with the same layout and area returns the same rectangles, and they always return.",
  "all layouts, all areas, all pairs of runs (every iteration order of the solver's maps)",
  "A repeated call sees two of the many possible map orders, and most layouts have a unique best solution; only particular layouts and orders show a difference or a cycle.",
  ["layout.go", "internal/casso/solver.go"])
p("C82", "The flex modes place segments of definite size exactly",
  "When the segments of a layout all ask for a definite size (length, maximum, percentage, ratio) and fit, every segment gets its size, and the free space goes where the flex mode says: behind the segments (FlexStart), in front (FlexEnd), half and half (FlexCenter) with the spacing kept between neighbours, or in equal shares between the segments (FlexSpaceBetween, FlexSpaceAround). Edges are rounded by at most 0.505 cells, and not at all where they are whole.",
  "all such layouts, all areas, all paddings, spacings and orders of the solver's maps",
  "The places come out of a simplex method over constraints of different strengths; a test sees particular sizes and one map order.",
  ["layout.go:configureFlexConstraints", "layout.go:configureConstraints", "layout.go:changesToRects"])
p("C83", "FlexSpaceAround leaves space around the segments",
  "In a FlexSpaceAround layout whose segments leave space free, there is space before the first segment and behind the last one, and the gaps between the segments are equal.",
  "all layouts with FlexSpaceAround, all areas, all orders of the solver's maps",
  "The layout tests do not cover this mode; which constraints are missing shows only in the solution.",
  ["layout.go:configureFlexConstraints", "flex.go"])
p("C84", "The constraint solver answers with a corner",
  "The values the solver reports are determined by the constraints they meet with equality and by the variables that are zero: no other assignment meets the same constraints with equality. The solver never stops somewhere between the bounds.",
  "all systems of constraints, all orders of the solver's maps",
  "Whether an answer is determined depends on the whole system; a test of particular values cannot tell a corner from a point that happens to be right.",
  ["internal/casso/solver.go"])
p("C85", "A layout that asks for whole sizes is a cheapest row of cells",
  "When the constraints of a FlexLegacy layout ask for whole numbers of cells, with at most one fill, the segments that Split returns cost no more than any other placement in the area, where the cost is the weighted sum of what the constraints miss (lengths before percentages before ratios before fills, minimum and maximum before them, spacing and outer edges first). This also holds when the constraints cannot all be met, and rounding to cells loses nothing.",
  "all such layouts, areas, paddings, spacings and orders of the solver's maps; all other placements, also fractional ones",
  "The claim compares with every other placement; a test compares with one expected answer.",
  ["layout.go", "internal/casso/solver.go"])
p("C86", "A layout of one segment puts it where its flex mode says",
  "Splitting with a single constraint gives one segment with the size it asks for, cut down to the area (all of it for a minimum or a fill, and always in FlexLegacy and FlexSpaceBetween), at the start, at the end or in the middle of the padded area; in FlexStart, FlexCenter and FlexEnd a length that fits keeps its exact number of cells. Whether it fits or not, calling it again gives the same rectangle (FlexSpaceAround only promises one of the two ends), and the split ends with probability one.",
  "all single constraints, areas whose padded part starts at a non-negative coordinate, paddings, flex modes and orders of the solver's maps",
  "The usual way to centre something; sizes, areas and map orders are unbounded, and the solver is asked to weigh wishes of different strengths.",
  ["layout.go:Layout.SplitWithSpacers", "layout.go:configureFlexConstraints", "layout.go:configureConstraints"])
p("C87", "A throbber stays in its place",
  "While its frames change, a throbber is drawn in the same rectangle of its area.",
  "all frame sets, frame numbers, areas, paddings, placements and orders of the solver's maps",
  "Each frame solves its layout anew; a test compares two frames of one set in one area.",
  ["widget/throbberwidget/throbber.go:Throbber.RenderStateful", "widget/throbberwidget/set.go"])
p("C88", "Run without an error means that the app has quit",
  "If Run returns no error, the last message taken was the quit message, and the model returned is the one Update had made of the messages before it; a panic in Init, Update or while drawing is reported as an error.",
  "all schedules, all programs, all ways Run returns",
  "Callers check the error only; needs all executions, panics at any moment included.",
  ["app.go:appRunner.Run", "app.go:appRunner.recoverFromPanic"])
p("C89", "Style helpers show the colour and modifier they name",
  "After any chain of builder calls a cell shows the last foreground and the last background named, and keeps its own where none was; each named helper (Red, OnBrightBlue, Bold, ...) changes exactly what its name says in the rendition, the colours being the palette colours 0 to 15 of the terminal; RGB and OnRGB show exactly the three bytes given.",
  "all chains of builder calls, all cells, all helpers, all bytes; terminals whose profile keeps the colour",
  "Chains and cells are unbounded, and 256^3 colours go through a textual form.",
  ["style.go:Style.WithForeground", "style.go:Style.WithBackground", "style.go:Style.RGB", "cell.go:Cell.SetStyle"])
p("C90", "Growing segments share what the others leave, in every flex mode",
  "If a layout has a segment that grows (a Fill, or outside of FlexLegacy a Min), then every segment that does not grow has the size it asks for, the spacing or overlap between neighbours is kept, nothing is left before the first or after the last segment, and the growing segments share the rest in proportion to their weights (a Min counts as Fill(1), Fill(0) as a millionth). Edges are rounded by at most 0.505 cells, and not at all where they are whole. The flex mode does not matter then, and calling it again gives the same rectangles.",
  "all layouts within the solver's symbol counter (see C22) with a growing segment (outside of FlexLegacy one that is not Fill(0)) whose sizes come out non-negative, no shorter than an overlap and no shorter than a growing minimum; all areas, paddings, spacings, directions and orders of the solver's maps, with probability one over the orders",
  "The usual way to write a screen (side bar and content); sizes, weights and areas are unbounded, and the shares come out of a weighing of thousands of soft wishes.",
  ["layout.go:configureConstraints", "layout.go:configureFlexConstraints", "layout.go:configureFillConstraints", "layout.go:Layout.SplitWithSpacers"])
p("C91", "In a FlexLegacy row without a fill the segment that minds least gives way",
  "In a FlexLegacy layout without a Fill, the space that is left goes to the one segment that is first in the order Min, Ratio, Percentage, Len, Max, and the space that is missing is taken from the one that is first in the order Max, Ratio, Percentage, Len, Min; all other segments have exactly the size they ask for, the spacing is kept and nothing is left at the ends. If nothing is left or missing, every segment has its size. Edges are rounded by at most 0.505 cells, and not at all where they are whole; calling it again gives the same rectangles.",
  "all such layouts within the solver's symbol counter (see C22) in which only one segment is first in the order, whose sizes come out non-negative and no shorter than an overlap; all areas, paddings, spacings, directions and orders of the solver's maps, with probability one over the orders",
  "FlexLegacy is the default mode, and header, content and footer are written as Len, Min, Len; whether the right segment gives way depends on the strengths of all constraints together, for unbounded sizes.",
  ["layout.go:configureConstraints", "layout.go:configureFlexConstraints", "layout.go:Layout.SplitWithSpacers"])
p("C92", "Several titles of a block stand in the order given, side by side",
  "Titles given one after the other with WithTitle appear in their row (top or bottom) in that order, each with a free column behind it: the left-aligned ones from the left border, the right-aligned ones up to the right border, the centred ones in the middle of the columns between the borders. If the three groups of a row fit beside each other, every title is shown completely.",
  "all blocks, all lists of titles made of symbols of one or more columns whose groups fit beside each other, all positions, alignments and border combinations, all areas of at least two rows inside the buffer at a non-negative column",
  "Any number of titles in six groups; what is drawn later could hide what was drawn before.",
  ["widget/blockwidget/block.go:Block.renderTitlePosition", "widget/blockwidget/block.go:Block.renderRightTitles", "widget/blockwidget/block.go:Block.WithTitle"])
p("C93", "Mouse messages are well-formed and their names tell them apart",
  "Every mouse message carries one of the eleven buttons or none; a wheel event is a press, whether or not the terminal sets the motion bit or ends its report like a release; without a button there is only a release or a motion. Two mouse messages with the same String differ at most in their position.",
  "all byte sequences a terminal may send, all pairs of mouse messages made of them",
  "Programs compare msg.String() with a literal; the reports come from any terminal, well-behaved or not.",
  ["mouse.go:MouseEvent.String", "mouse.go:MouseEvent.IsWheel", "mouse.go:parseMouseButton", "mouse.go:parseSGRMouseEvent"])
p("C94", "Layouts computed at the same time do not disturb each other",
  "However many goroutines split at the same time, the solver variables that one of them is given are all different and increasing, and its split has the same outcome as in a process that does nothing else. Different goroutines may be given the same variables, which does no harm.",
  "all interleavings of fewer than 2^64 atomic operations of any number of goroutines, all layouts and areas, every order of the solver's maps",
  "NewVariable reads the process-wide counter and adds to it in two separate atomic operations; only particular interleavings show the difference.",
  ["internal/casso/casso.go:NewVariable", "layout.go:Layout.SplitWithSpacers"])
p("C95", "In a FlexLegacy row space is shared out in a fixed order of kinds, however small the area",
  "In a FlexLegacy layout the spacing is kept and nothing is left at the ends. Space that is left goes only to segments that are first in the order Fill, Min, Ratio, Percentage, Len, Max; a segment gets less than it asks for only if all segments that come before it in the order Fill, Max, Ratio, Percentage, Len, Min get nothing at all; and no segment gets more than it asks for while another gets less. Edges are rounded by at most 0.505 cells, and not at all if every segment asks for whole cells.",
  "all FlexLegacy layouts within the solver's symbol counter (see C22) with at most one Fill, all areas with room for the spacing, all paddings, non-negative spacings, directions and orders of the solver's maps, with probability one over the orders",
  "Terminals get resized to a few cells; which segment vanishes first depends on the strengths of all constraints together, for unbounded sizes and numbers of segments.",
  ["layout.go:configureConstraints", "layout.go:configureFlexConstraints", "layout.go:Layout.SplitWithSpacers"])
p("C96", "Floating point rounding does not move a segment",
  "The solver computes with float64 and treats anything below 1e-8 as zero. For layouts that mention whole cells only, SplitWithSpacers nevertheless returns exactly the rectangles that exact arithmetic would give, pivot by pivot and for every order of the solver's maps: no edge is off by a cell, no constraint is dropped, and no panic or endless loop is due to rounding.",
  "all FlexLegacy layouts of Len, Min, Max and at most one Fill, and all layouts of at most one such segment in any mode but FlexCenter, within the solver's symbol counter (see C22), with sizes, spacing and coordinates within 32 bits; all areas, paddings, directions, fill weights, orders of the solver's maps and numbers of pivots",
  "Strengths from 1 to 1e9 are mixed in one tableau, and the size of intermediate values depends on the pivots taken; a test only sees the cases where nothing is lost.",
  ["internal/casso/casso.go:_Row.InsertSymbol", "internal/casso/casso.go:_Row.InsertRow", "internal/casso/casso.go:_Row.SolveForSymbol", "internal/casso/casso.go:nearZero", "internal/casso/solver.go:Solver.optimize", "internal/casso/solver.go:Solver.getLeavingRow", "layout.go:changesToRects"])
p("C97", "Control characters in displayed text never reach the terminal",
  "Text that is shown by a widget cannot command the terminal: whatever is in the spans, lines, texts, paragraphs, list items, block titles, tab titles, gauge labels, input fields, popups and throbbers, escape sequences included, the text that Draw writes to the terminal between the library's own commands contains no control characters.",
  "all texts, widgets, areas, buffers, segmentations, sessions of draws and resizes, and failing writes; border and highlight symbols chosen by the program must themselves be free of control characters",
  "File names, log lines and network data are displayed as they come; one hostile string is enough, and a test tries a few.",
  ["widget/textwidget/span.go:StyledGraphemes", "widget/textwidget/span.go:Span.Render", "widget/paragraphwidget/paragraph.go", "widget/tabswidget", "widget/gaugewidget", "buffer.go:Buffer.SetStringN", "terminal.go:Terminal.Draw"])
p("C98", "Characters without width stay with the symbol they follow",
  "When a span is drawn, a grapheme cluster that takes no column (a zero width space, a lone combining mark) is kept in the cell of the symbol before it, or of the first symbol if there is none before; it uses up no column, and the cells of the row, read from left to right, spell the text that fits.",
  "all spans whose text is made of clusters of any widths, all areas and buffers with at least one column and row of the area inside of the buffer",
  "Where a mark lands depends on the position and the widths of everything before it, and on where the text is cut.",
  ["widget/textwidget/span.go:Span.Render", "cell.go:Cell.AppendSymbol", "buffer.go:Buffer.Diff"])
p("C99", "An input field takes one row, where its vertical alignment says",
  "However high its area is, an input field writes into one row of what is inside of its block: the first one by default and for Top, the last one for Bottom, the middle one for Middle (of an even number of rows, the lower of the two). The prompt and the text around the cursor stand in it as aligned; every other cell inside of the block keeps its symbol, and no symbol outside of the area changes.",
  "all input fields with a flex mode other than FlexSpaceAround, all areas inside of the buffer without negative coordinates with at least one row inside of the block, and every order of the solver's maps, with probability one over the orders; for what the row shows: a text that is not empty, of clusters that take at least one column each and stay apart when joined, a row that has room for the prompt and the cursor, and a state as C39 keeps it",
  "The row is found by the layout solver, for any height and order of its maps.",
  ["widget/inputwidget/input.go:Input.RenderStateful", "layout.go:Layout.SplitWithSpacers"])
p("C100", "Wide characters stand where the alignment puts them, whole or not at all",
  "In a line of text with characters of one or more columns (Chinese, Japanese, Korean, emoji), each symbol all of whose columns are inside of the row stands in its first column with blanks in its other ones, at the column given by the alignment and the widths of the symbols before it; no symbol is shown by half and all other cells keep their symbols. A line that fits is shown completely; one that does not fills the row except for at most a half symbol at either end. The lines of a text do so row by row. Each shown symbol has the style of its span.",
  "all lines and texts of clusters that take at least one column and contain no control characters, all alignments, styles, buffers and areas inside of the buffer, and all segmentations that satisfy the assumptions Lawful and Suffix",
  "Cutting a text on the left in the middle of a wide symbol moves what follows; the effect depends on the parity of widths, alignment and area.",
  ["widget/textwidget/line.go:Line.renderWithAlignment", "widget/textwidget/span.go:renderSpans", "widget/textwidget/span.go:Span.Render", "widget/textwidget/text.go:Text.Render"])
p("C101", "Widgets on areas that do not overlap do not affect each other",
  "A widget treats every cell by itself: whether it panics, and the state it leaves behind, does not depend on what is already in the buffer, and what it leaves in a cell depends only on what was in this cell. So widgets that keep to areas that do not overlap each show what they would show alone, whatever the order in which they are drawn; and so do widgets drawn into the segments of a FlexLegacy layout without spacing.",
  "all spans, lines, texts, blocks, paragraphs, lists, tabs, gauges, scrollbars, fills, Clear, input fields, popups and throbbers, with all contents, areas, states and orders of the solver's maps; all buffers; for the order of drawing, all lists of drawings that keep to areas without common cells; for layouts, all FlexLegacy layouts without spacing within the solver's symbol counter (see C22) with fill weights that add up to at most 1000000, if the split comes to an end",
  "That drawing never looks at what is in the buffer, and never depends on what was drawn before, is a statement about pairs of runs; a test compares two pictures.",
  ["buffer.go:Buffer.SetStringN", "buffer.go:Buffer.SetStyle", "widget/textwidget", "widget/blockwidget/block.go", "widget/paragraphwidget/paragraph.go", "widget/listwidget", "widget/popupwidget", "layout.go:Layout.Split"])
p("C102", "What the widgets draw is what the screen shows",
  "A program that draws with the widgets of the library, in any number and combination, overlapping or not, out of one-column printable symbols and styles with colours the terminal has (and without Hidden and RapidBlink), never produces a frame that the terminal cannot show: after Draw, if drawing does not panic, every cell of the screen in the viewport shows the symbol, colours and modifiers of the frame, whatever was drawn, resized, cleared or disturbed before. In particular a text can be read off the screen: line i in row i, each character in its column.",
  "all drawings composed of spans, lines, texts, blocks, paragraphs, lists, tabs, gauges, scrollbars, fills, Clear, input fields, popups and throbbers with all settings, states, areas and orders of the solver's maps; all histories as in C12; all sets of one-column symbols that do not join and all colour profiles that pass the default colour through",
  "It links every widget to the emulator's screen through all previous frames; a test looks at one buffer or one string of output.",
  ["widget", "buffer.go:Buffer.Diff", "terminal.go:Terminal.Draw", "terminal_backend.go:DefaultBackend.Draw"])
p("C103", "Characters, keys, mouse and pastes mixed arrive in order",
  "Whatever is typed, pressed, clicked and pasted at the terminal, in any order, arrives as messages in that order, each thing once and as what it is: no byte of a key sequence, a mouse report or a pasted text is taken for part of something else. Characters typed in a row may come in one message. A read that fills the buffer may hold back what it ends with for the next read; after any other read nothing is held back.",
  "all sequences of printable characters, characters with Alt (except space, [ and O), keys with known sequences (except Alt+Escape), Escape, mouse events that have an SGR report and pasted texts without the mark that ends them; all ways of distributing them over reads, if no read cuts through one of them, and Escape comes last in its read, which does not fill the buffer",
  "There are as many mixtures as there are sessions; every boundary between two kinds of bytes is another case.",
  ["input.go:detectOneMsg", "input.go:readAnsiInputs", "input.go:detectSequence", "input.go:detectBracketedPaste", "mouse.go:parseSGRMouseEvent"])
p("C104", "What is typed into an input field is what the screen shows",
  "A program passes the key messages it gets on to an input field and draws it. Then from the bytes that the terminal sends up to the cells that it shows: the field holds the text that a plain editor would hold after the same typing, moving, deleting and pasting, with the cursor at the same place, and no key makes it panic; its row on the screen shows the prompt followed by this text (or the placeholder while it is empty), aligned, and a blank for the cursor at its end; the rest of the field and of the viewport is blank.",
  "all sessions of typing (as in C103, without Ctrl+W) and drawing in any order and any number, all histories of the terminal as in C12, all prompts, placeholders, blocks, styles and alignments made of what the terminal can show as in C102, all vertical flex modes except FlexSpaceAround, all areas in the viewport with at least one row; text of one-column characters that do not join; whenever the field is drawn it has room for the prompt, the text and the cursor; every order of the solver's maps for which the split of the row comes to an end (which it does with probability one, see C99)",
  "It goes through the whole library from input to output; unit tests look at each part alone and do not see whether the parts agree.",
  ["input.go:detectOneMsg", "widget/inputwidget/state.go:State.TryUpdate", "widget/inputwidget/input.go:Input.RenderStateful", "terminal.go:Terminal.Draw", "buffer.go:Buffer.Diff"])
p("C105", "While an app waits, the screen shows its current model",
  "Whenever a running app waits for the next message, and has heard of the last change of the window, the screen shows exactly the frame of its current model, that is, of the start model with Update folded over all messages taken so far, drawn onto a blank buffer of the size of the screen; the cursor is visible if and only if the frame asks for it, and it is where the frame wants it. All this happens on the alternate screen: when Run returns without an error, the screen of the shell is back, with the same contents, the default rendition and a visible cursor. As long as the terminal itself does not fail, no draw and no resize fails.",
  "all programs whose models draw frames that the terminal can show (see C12, C102), all interleavings of the goroutines, all results of commands, all inputs, all changes of the window at any time with any contents left behind, all failures of terminal operations, all sizes; for the frames, as long as the context is not done or no command can panic; for the screen of the shell, if no command can panic",
  "It is about all interleavings of goroutines and all changes of the window together with the bytes that every frame sends; a test runs one of them and looks at the buffers.",
  ["app.go:appRunner.Run", "app.go:appRunner.eventLoop", "app.go:appRunner.draw", "terminal.go:Terminal.Draw", "terminal.go:Terminal.Resize", "tty.go:appRunner.restoreTerminal"])
p("C106", "Keys pressed over a list select what the screen shows as selected",
  "A program passes the key messages it gets on to the state of a list and draws the list after every message. Then from the bytes that the terminal sends up to the cells that it shows: the selection moves as the keys say (j and down to the next item, k and up to the one before, g and G to the first and last, Ctrl+D and Ctrl+U by eight), one after the other, without leaving the list; the mouse, pasted text and all other keys do not move it. On the screen every item that is shown stands in its rows, behind the highlight symbol if it is the selected one and behind blanks otherwise; the selected item is shown if it fits; everything else in the list and around it is blank.",
  "all lists with at least one and at most 2^62 items and a scroll padding of at least zero, all sequences of gestures as in C103 distributed over reads that do not fill the buffer, if no two characters other than spaces are next to each other in a read; all areas the list is drawn to that leave room for its items, and all buffers; for the screen, all lists made of what the terminal can show as in C102, all areas in the viewport, all states with the selection in the list, all histories of the terminal as in C12",
  "It goes through the whole library from input to output; unit tests look at each part alone and do not see whether the parts agree.",
  ["input.go:detectOneMsg", "widget/listwidget/state.go:State.TryUpdate", "widget/listwidget/list.go:List.RenderStateful", "terminal.go:Terminal.Draw"])
p("C107", "Wide characters reach the screen whole",
  "A program that draws with the widgets of the library out of printable symbols of one or two columns (Chinese, Japanese, Korean, emoji among them) produces a frame that the terminal can show exactly, provided that in the frame a one-column symbol is behind each wide one: after Draw a wide symbol stands in its own cell and the next one, and every other cell of the viewport shows its own symbol, colours and modifiers. A text always meets the proviso, and can be read off the screen: line i in row i, each symbol that fits whole into the row in its columns at the alignment, no symbol by half, and blanks everywhere else.",
  "all drawings as in C102, out of all sets of symbols of one and two columns that do not join; all histories as in C12; for texts, all texts, alignments, styles and areas inside of the viewport",
  "A wide symbol and what is behind it, the differences to the last frame and the cursor's movement interact; which of them go wrong depends on columns, parity and the frame before.",
  ["widget/textwidget/text.go:Text.Render", "widget/textwidget/span.go:Span.Render", "buffer.go:Buffer.Diff", "terminal.go:Terminal.Draw"])
p("C108", "The last setting counts, and settings do not touch each other",
  "Widgets and layouts are configured by chains of With… calls. After any chain, in any order and with any repetitions, every setting has the value of the last call that sets it, or its default if there is none; spans, lines, titles and constraints are all kept in the order in which they were added (constraints and spans of several calls together); which sides a block's frame has is decided by the last call about sides. A gauge's chain fails exactly if one of its calls is not legal.",
  "all chains of the calls modelled in Model/Builders.lean (layouts, lines, texts, titles, blocks, lists, input fields, paragraphs, popups, tabs, gauges), from all starting values",
  "The number of chains is unbounded; a builder that forgets one field when another is set goes unnoticed unless just this pair is tried.",
  ["layout.go:Layout.WithFlex", "widget/textwidget/line.go:Line.WithSpans", "widget/blockwidget/block.go:Block.WithBorderSides", "widget/listwidget/list.go:List.WithHighlightSymbol", "widget/popupwidget/popup.go:Popup.WithHeight", "widget/gaugewidget/gauge.go:Gauge.WithPercent"])
p("C109", "Drawing a list again changes nothing",
  "A list is redrawn at every frame, also when nothing has happened. Drawing the same list in the same area with the state that the last drawing left behind leaves the state as it is and shows the same picture.",
  "all lists with non-negative padding, all areas and all states with non-negative offset and selection",
  "Whether scrolling has settled after a frame depends on all heights, the padding, the offset and the selection together.",
  ["widget/listwidget/list.go:List.getItemsBounds", "widget/listwidget/list.go:List.RenderStateful"])
p("C110", "Alignment of a text is the alignment of its lines",
  "Aligning a text, a list item or a paragraph is the same as aligning each of its lines that has no alignment of its own, wherever the text is drawn.",
  "all texts, list widgets and paragraphs, all alignments, areas and buffers",
  "An equality of drawings over all texts and areas.",
  ["widget/textwidget/text.go:Text.Render", "widget/listwidget/list.go:List.RenderStateful", "widget/paragraphwidget/paragraph.go:Paragraph.Render"])
p("C111", "Widgets as they are made",
  "A block that was just made is invisible and gives all of its area to its contents. A list that was just made and is drawn without a state shows its first items, as many as fit, from the top row on, each line at its alignment over the full width; nothing is highlighted, and no column is kept for a symbol.",
  "all areas inside of the buffer with non-negative column, and all buffers; for lists, all non-empty lists of items of visible text of which the first one fits into the area",
  "The default values of a dozen settings and an empty state act together on every area and every list of items.",
  ["widget/blockwidget/block.go:New", "widget/listwidget/list.go:New", "widget/listwidget/list.go:List.Render", "widget/listwidget/state.go:NewState"])
p("C112", "A whole program: the panels of examples/lazygitlike",
  "The example program shows seven titled panels and a footnote that cover the screen without gaps and overlaps. From the keys to the cells: tab and shift+tab walk around the five panels of the left side, q and ctrl+c quit, nothing else changes the panel; and whenever the program waits for a message, every cell of the screen is known: the frame of each panel with its title at the top left and its counter at the bottom right, the frame of the active panel in bold green, the size of the window in the status panel, the rows and columns of the panels as the height of the window and the active panel determine them, and the footnote with its colours. No size of the window and no sequence of messages makes it panic.",
  "all sequences of messages and interleavings as in C105, all windows of at least five rows whose size the program was told last (smaller windows: it does not panic), all results that Split may return, all segmentations of text in which printable ASCII characters and the lines of the frames are one column wide and do not join, all terminals that can show the colours",
  "The picture depends on the layout solver, the blocks, texts, styles, the differences to the last frame and the event loop together, for every size, panel and history.",
  ["examples/lazygitlike/main.go:Model.Render", "examples/lazygitlike/main.go:Model.Update", "layout.go:Layout.Split", "widget/blockwidget/block.go:Block.Render", "app.go:App.Run"])
p("C113", "Keys arrive under their names",
  "What a terminal sends for a key with its modifiers is delivered as one key message whose String is the name of the key with its modifiers in front (alt+, ctrl+, shift+ in this order), so a binding written as \"ctrl+right\" or \"shift+tab\" fires exactly at that key; a control character is ctrl with its letter, or tab, enter, backspace, esc. With an escape in front, the key gets alt. Conversely, every sequence that the library knows is one that these terminals send for that key, but for nine.",
  "all keys and modifiers that xterm, rxvt, the Linux console and keypads send and that are listed in Spec/Keys (133 sequences: arrows, home and end with all modifiers, page keys, insert, delete, F1 to F20 and their variants), all control characters, all bytes that follow (for escape itself: none)",
  "The table has more than a hundred entries that are typed in by hand; what a sequence is taken for depends also on all other sequences and on the bytes that follow it.",
  ["input.go:sequences", "input.go:keyNames", "input.go:Key.String", "input.go:detectSequence", "input.go:detectOneMsg"])
p("C114", "Mouse reports arrive as they were meant",
  "A report of a mouse button in the format the library asks for (SGR) is delivered as one mouse event at the reported cell, counted from zero, and its String names the modifiers, the button and whether it was pressed, released or moved with; wheel movements have no action; moving without a button is \"motion\".",
  "all buttons and wheels, modifiers and actions, all positions from 1 to 2^63-1, all bytes that follow",
  "Numbers of any length are parsed out of the bytes; buttons, modifiers and motion are bits of one of them in all combinations.",
  ["mouse.go:parseSGRMouseEvent", "mouse.go:parseMouseButton", "mouse.go:MouseEvent.String", "input.go:detectOneMsg"])
p("C115", "An unknown control sequence is taken whole",
  "A control sequence of the terminal that the library does not know (parameters, intermediate bytes, a final byte) is delivered as one message of its own kind with exactly its bytes, so that no part of it arrives as typed text; and only such sequences are delivered in this way.",
  "all control sequences of the standard form, and all bytes that follow, if no known sequence, mouse report, report of the focus or begin of a paste is a prefix of it",
  "There are unboundedly many sequences of this form.",
  ["input.go:unknownCSIRe", "input.go:detectSequence", "input.go:detectOneMsg"])
p("C116", "Wrapping does not break words that fit",
  "When a text is wrapped, a word that is no wider than a row is not broken: it stands on one row as a whole, behind the visible graphemes before it and before those after it.",
  "all texts, widths greater than zero, with and without trimming, all words (runs between whitespace) of all lines, with graphemes of any width; graphemes wider than a row are dropped and do not count",
  "Where a word falls depends on all words, whitespace and widths before it in its line.",
  ["internal/reflow/wrapper.go:WordWrapper.processInput", "internal/reflow/wrapper.go:WordWrapper.NextLine", "widget/paragraphwidget/paragraph.go:Paragraph.Render"])
p("C117", "Wrapping does not end rows early",
  "When a text is wrapped, a row that shows something and behind which its line goes on is filled as far as possible: it is full, or the next word (or the rest of a word that is wider than a row) does not fit behind it with the whitespace in between.",
  "all texts, widths greater than zero, with and without trimming, all rows of all lines, with graphemes of any width; graphemes wider than a row are dropped and do not count",
  "That no shorter way of breaking is used is a statement about all rows of all texts; a test compares one text with one expected result.",
  ["internal/reflow/wrapper.go:WordWrapper.processInput", "internal/reflow/wrapper.go:WordWrapper.NextLine", "widget/paragraphwidget/paragraph.go:Paragraph.Render"])
p("C118", "The cells of a text field",
  "Whatever was typed into a text field, when it is drawn with room for its text every cell of its content area is known, with its colours and modifiers: the cells have the style of the field and of its block; in the row of the field stand the prompt in its style and the text, of which the symbol at the cursor (or a blank behind the text) has the style of the cursor; or, if nothing was typed, the placeholder in its style, its first symbol with the style of the cursor over it. The terminal shows exactly these cells.",
  "all sequences of keys, pastes and mouse events without ctrl+w as in C104, all fields (vertical alignments other than FlexSpaceAround, no negative padding), blocks and alignments, all areas inside of the buffer, not left of or above the origin, with a row and with room for prompt, text and cursor, all visible single-width characters that do not join, all map orders of the solver in which it comes to an end",
  "Which cell has which style depends on everything typed, on the cursor, and on the styles of five parts that are laid over each other.",
  ["widget/inputwidget/input.go:Input.RenderStateful", "widget/inputwidget/input.go:Input.split", "widget/inputwidget/state.go:State.update", "cell.go:Cell.SetStyle"])
p("C119", "A whole program with a text field: examples/input",
  "The example program shows a popup with a thick frame and the title \"Input\", three rows high in the middle of the screen and three fifths of it wide, on a background of dim strokes; in it, behind the prompt, the text that a plain editor would hold after everything typed, pasted and moved so far, with the cursor reversed, or the placeholder dim and italic. Every cell of the screen is known from what was typed and from the size. No message makes Update panic, and the program gives the command to quit exactly at ctrl+c; the text \"ctrl+c\" is typed into the field.",
  "all sequences of keys, pastes and mouse events without ctrl+w as in C104 (quitting and panics: all messages at all), drawn at any times; all screens with three rows and room for the text, the cursor, the prompt and the frame in the popup; all sets of visible single-width characters that do not join and contain printable ASCII and the lines of the frame; all map orders of the solvers in which they come to an end",
  "The picture depends on five layout solvers, the block, the clearing, the styles and the whole editing history together.",
  ["examples/input/main.go:Model.Render", "examples/input/main.go:Model.Update", "widget/popupwidget/popup.go:Popup.Render", "widget/inputwidget/input.go:Input.RenderStateful", "widget/inputwidget/state.go:State.TryUpdate"])

p("C120", "An animation neither stops nor doubles",
  "In a program that starts a throbber in Init, passes its ticks to TryUpdate and returns the command it gets, exactly one tick is on its way to Update whenever the model is shown or the program waits: in a command not yet run, in a timer, in a message being sent. It is the tick the throbber accepts next, and the frame number equals the number of ticks taken. So keys, resizes and other commands neither stop the animation nor make it run at double speed; from every state in which the program waits, the next frame is at most three steps away and needs no input. Only after the context is cancelled can the tick be given up. examples/throbber is such a program.",
  "all programs that treat the throbber in this way and whose other commands do not send ticks, all interleavings of the goroutines, all outcomes of operations, all sequences of input messages in which no tick comes from the terminal",
  "A tick lost or doubled under one interleaving of Update, commands and timers would show up as a frozen or racing animation only now and then.",
  ["widget/throbberwidget/state.go:State.TryUpdate", "widget/throbberwidget/state.go:State.Tick", "app.go:App.Run", "cmd.go:Tick", "examples/throbber/main.go:Model.Update"])

p("C121", "The throbber example shows the frame that has the number of the ticks",
  "On a screen of at least 15 columns and 11 rows every cell of the program examples/throbber is told: the first row holds \"FPS\" and the speed, the last row the help, and between them three rows of three boxes cover the screen without overlaps; the box of a throbber has its name in the top border and, in the middle, the frame of its set whose number is the number of ticks taken so far modulo the size of the set. Whenever the program waits for a message this is what the terminal shows, and the speed is the starting one changed by one millisecond per key + and -. On smaller screens nothing panics.",
  "all screens whose sizes the app knows, all sequences of messages and all interleavings of the goroutines in which no tick comes from the terminal, all orders of Go's maps in the layout solver for which it comes to an end, all grapheme tables in which the program's symbols are single columns",
  "A throbber's frame depends on how the loop, timers, the layout solver and the diff work together; a test sees one screen of one size after one schedule.",
  ["examples/throbber/main.go:Model.Render", "examples/throbber/main.go:getGrid", "examples/throbber/main.go:Model.Update", "widget/throbberwidget/throbber.go:Throbber.RenderStateful", "app.go:App.Run"])

p("C122", "Every cell of a text and of a list, with its style",
  "After drawing a text every cell of the buffer is told exactly, colours and modifiers included: cells of the area have the style of the text; above it, as many of the leftmost columns of a row as the line is long have the style of the line; above it are the symbols, where the alignment puts them, with the styles of their spans. After drawing a list every cell of an item's rows is what the style of the list, the block, the style of the item, the item's text, the highlight symbol (or its blanks, in the style of the item) and, for the selected item, the highlight style make of it in this order; the other cells of the content only have the styles of list and block. Nothing else changes.",
  "all texts and lists of single-width printable symbols with a single-width highlight symbol, all styles and alignments, all areas and buffers in which the area lies, all earlier contents of the buffer, all list states with offset and selection not negative",
  "Styles are patches laid over one another in an order; tests compare a few pictures, mostly of symbols only.",
  ["widget/textwidget/text.go:Text.Render", "widget/textwidget/line.go:Line.Render", "widget/listwidget/list.go:List.RenderStateful"])

p("C123", "A list of items of the same height scrolls no further than it must",
  "If all items of a list have the same height, drawing shows as many of them as fit. Among the places at which the selected item is shown, the first item shown is the one nearest to the first item shown before; in particular nothing scrolls as long as the selected item stays on the screen, and without a selection nothing scrolls at all. After drawing, the state holds this first item and the unchanged selection.",
  "all numbers and heights of items, all contents, styles, blocks and areas in which at least one item fits, all offsets, all selections in the list or none; scroll padding 0",
  "The window is found by three loops that push two bounds around; a test tries a few selections in lists of a few items.",
  ["widget/listwidget/list.go:List.getItemsBounds", "widget/listwidget/list.go:List.RenderStateful"])
p("C124", "The example program with a list shows the items that the keys lead to",
  "In the program of examples/list every key moves the selection among its hundred items as the key's name says, the space bar shows and hides the popup, and q and ctrl+c, and nothing else, give the command to quit. After every message the frame shows the same picture cell by cell, colours and modifiers included: the frame with its two titles, the items of two lines each from the first one that keeps the selected one on the screen without scrolling further than needed, the selected one in black on blue with its symbol in front, and in the middle, if it was asked for, the popup with its centred text. The terminal shows exactly this picture after the flush.",
  "all sequences of messages, each followed by a frame, with areas of any size of at least 30 columns and 4 rows that may change from frame to frame; all terminals that can show the two colours; all orders in which Go may iterate the solver's maps, unless the solver has not come to an end",
  "The state that drawing leaves behind is the input of the next frame; a test sees a few keys on one screen.",
  ["examples/list/main.go:Model.Render", "examples/list/main.go:Model.Update", "widget/listwidget/list.go:List.RenderStateful",
   "widget/popupwidget/popup.go:Popup.Render", "widget/paragraphwidget/paragraph.go:Paragraph.Render"])
p("C125", "A wrapped paragraph fills its rows with words",
  "A paragraph that wraps fills its rows as one would on a page: a word goes behind the others on its row if there is room for it and for the blank before it, and else it begins the next row, without the blank. An empty line has one empty row. The paragraph shows these rows one below the other inside of its block, from the row that the scroll offset asks for, each at its alignment; the cells that no word or blank takes keep their symbols, and each cell has the style of the paragraph and of the text. The terminal shows exactly this page.",
  "all texts of lines of words without zero-width or wide graphemes, with one blank between two words and none at the ends of the lines, in which no word is wider than a row; with and without trimming; all styles, blocks without negative padding, alignments other than none and scroll offsets not negative, all areas inside of the buffer (with a block: not left of the origin) in which the block leaves a row and a column; the last sentence: unstyled ASCII words in a paragraph of any style without a block, drawn on the whole screen after any earlier frames",
  "Where a word falls depends on all words before it; one text in one width is what a test sees.",
  ["internal/reflow/wrapper.go:WordWrapper.processInput", "internal/reflow/wrapper.go:WordWrapper.NextLine", "widget/paragraphwidget/paragraph.go:Paragraph.Render"])
p("C126", "Gaps come before sizes, and segments never share a cell",
  "Whatever the constraints of a layout ask for and however little room there is, two segments never share a cell. Unless no segment takes any room at all, there is at least the spacing between any two of them, in the order of the constraints; in the modes start, center and end it is exactly the spacing, and in spaceBetween and spaceAround the gaps differ by at most one cell. The room that the segments leave is at the end in start, at the beginning in end, at both ends alike (up to one cell) in center and at neither in spaceBetween (two or more segments). The areas of layouts nested in one another to any depth share no cell and lie in the area one began with, so what is drawn on them does not depend on the order and looks as it would alone. All of this holds with probability one over the iteration orders of Go's maps.",
  "all constraints of all kinds with all numbers, as many as the solver has symbols for (Few), all six flex modes, all spacings that are not negative, all directions, paddings (for nested layouts: not negative) and areas (for exact and even gaps: not beginning at negative coordinates), all orders of Go's maps for which the solver comes to an end; exact rational arithmetic in the solver; drawing: widgets that treat every cell by itself and stay in their area (C101)",
  "The solver weighs all wishes against each other; whether some combination of wishes and sizes makes two segments overlap cannot be seen from examples.",
  ["layout.go:Layout.SplitWithSpacers", "layout.go:configureFlexConstraints", "layout.go:configureConstraints", "layout.go:changesToRects"])
p("C127", "Every cell of a page made of widgets on top of one another",
  "A program draws any of the widgets of the library – blocks, texts, paragraphs, tabs, gauges, lists, scrollbars, popups, throbbers, text fields, fills and clears – in areas that it likes, one after the other and also on top of one another. Afterwards every cell is what these layers make of it in this order, symbol, colours and modifiers: a layer leaves the cells outside of its area alone; a block gives its style to its area, draws its border in the border's style and on it the titles on the left, in the middle and on the right, as far as there is room for them, each in the titles' style and its own, later ones over earlier ones; paragraphs, tabs, lists and text fields draw their block first and themselves inside of it; a popup empties its place and draws its block there. In the area for the content of a block only the style changes, however many titles it has. The terminal shows exactly this page after the flush.",
  "all pages: all numbers and orders of layers; areas inside of the buffer at a column that is not negative; texts, titles, tabs, labels, items and lines of single-width printable symbols (paragraphs: any text whose rows fit the width); all styles, alignments, title positions and border sets; blocks and popups without negative padding, blocks with two or more rows and columns (or the same symbols at both ends); gauges without parts of cells (UseUnicode) at most 2^53 columns wide, with any correct float rounding; list states that are not negative; scrollbars with arrow heads of one cell and room for a track; text fields with room for a row; all orders of Go's maps for which the solver comes to an end; all earlier contents of the buffer; the terminal: after any earlier frames, with symbols and styles it can show",
  "Later layers see what earlier ones left; tests draw one widget on an empty buffer.",
  ["widget/blockwidget/block.go:Block.Render", "widget/blockwidget/block.go:Block.renderLeftTitles", "widget/blockwidget/block.go:Block.renderCenterTitles",
   "widget/blockwidget/block.go:Block.renderRightTitles", "widget/tabswidget/tabs.go:Tabs.Render", "widget/gaugewidget/gauge.go:Gauge.Render",
   "widget/listwidget/list.go:List.RenderStateful", "widget/textwidget/text.go:Text.Render", "widget/paragraphwidget/paragraph.go:Paragraph.Render",
   "widget/scrollwidget/scroll.go:Scroll.RenderStateful", "widget/popupwidget/popup.go:Popup.Render", "widget/throbberwidget/throbber.go:Throbber.RenderStateful",
   "widget/inputwidget/input.go:Input.RenderStateful", "terminal.go:Terminal.Draw"])

p("C128", "In an app that keeps running nothing waits for ever",
  "While the event loop of an app keeps running, a command that Update or Init returned is started after finitely many steps, its function returns, and the event loop takes the message it returned; a sequence whose message arrived is run to its end, every command and every command of a batch inside it having run once and in order, with all their messages taken; a key that was read and a window size that was found reach the event loop; no message is ever given up.",
  "all programs and all unbounded executions of the goroutines of App.Run (resting included) in which the event loop runs from some moment on without the context being done, under every scheduler that lets whoever can go on again and again do so again and again, where calls of commands end and nobody has to type or resize the window",
  "Liveness speaks about infinite executions and all fair schedulers; a test sees one finite schedule, and a command that was lost or a sequence that got stuck looks the same as one that is slow.",
  ["app.go:appRunner.initModel", "app.go:appRunner.Send", "app.go:appRunner.handleCommands", "app.go:appRunner.handleCmd",
   "app.go:appRunner.eventLoop", "tty.go:appRunner.readLoop", "tty.go:appRunner.checkResize", "cmd.go:Sequence"])

p("C129", "Keys of the Windows console mean what they mean in a terminal",
  "On the Windows console a key that goes down arrives as one message for each time it repeats, called as in a terminal: alt, ctrl and shift, and then the key; characters that are typed arrive as text, whatever is needed to type them; keys that type nothing never arrive as text; keys that go up say nothing.",
  "all key records of the console (every virtual key code, character, repeat count and state of the modifier keys), in all places of a stream of records",
  "There are millions of records, and the reading differs from that of terminals in code that does not even compile on the machines where tests run.",
  ["key_windows.go:readConInputs", "key_windows.go:keyType"])

p("C130", "The mouse on the Windows console",
  "The console reports which buttons are down; the messages say which button was pressed, released or dragged, or how the wheel turned, at which place and with which modifiers, in the order in which it happened, whatever other records come in between.",
  "all sequences of presses, double clicks, releases, movements and turns of the wheels with any buttons held, one button changing at a time; all positions and states of the modifier keys; records whose button state names the five buttons only",
  "Messages depend on the whole history of buttons; a test tries few histories.",
  ["key_windows.go:mouseEventButton", "key_windows.go:mouseEvent", "key_windows.go:readConInputs"])

p("C131", "Disabling raw mode brings the terminal's settings back",
  "After raw mode has been disabled the terminal has the settings it had before raw mode was first enabled, however often raw mode is enabled and disabled and whichever of these calls fail; an input that is no terminal is left alone.",
  "all sequences of EnableRawMode and DisableRawMode of the default backend, each succeeding or failing; all settings and all ways to make them raw",
  "Sequences of calls with failures are unbounded, and tests have no terminal.",
  ["terminal_backend_unix.go:DefaultBackend.EnableRawMode", "terminal_backend.go:DefaultBackend.DisableRawMode"])

p("C132", "Sizes from the Windows console",
  "An app is told about the sizes that the console reports, in order, none twice in a row and none made up, and the last one it is told is the last one reported, unless that is the empty size at the very beginning.",
  "all streams of console records of all kinds, from every state of the reader",
  "Which reports are repetitions depends on the whole stream.",
  ["key_windows.go:readConInputs"])

p("C133", "An animation goes on for ever",
  "In an app with a throbber that keeps running, every frame of the animation is drawn: for every number there comes a moment at which a model whose throbber is at the frame of this number has been drawn and the app waits, and after every moment at which the app waits the frame with the next number is drawn. No input is needed, and no amount of input, resizes or other commands prevents it. examples/throbber is such an app.",
  "all programs that treat the throbber as C120 says, all infinite executions in which the event loop keeps running, no ticks come from the terminal and the scheduler is fair (who can go on again and again does), whatever else happens; timers fire at some time",
  "A test can wait for some frames only, under one schedule; that the animation never stalls is a statement about infinite executions.",
  ["widget/throbberwidget/state.go:State.TryUpdate", "widget/throbberwidget/state.go:State.Tick", "app.go:App.Run", "cmd.go:Tick", "examples/throbber/main.go:Model.Update"])

p("C134", "The app gets to know the last size of its window",
  "When the window of a running app has stopped changing, the app comes to rest after at most seven steps of its resize goroutines, and then its terminal has the size of the window; a signal that arrives while an earlier change is still being handled is not lost. If the window never changes the app has its size at all times.",
  "Unix; all sequences of window changes at all moments, all interleavings of the goroutine that asks for the initial size, the one that waits for the signal, and the event loop taking their messages; the size can be asked for",
  "Whether the last size wins depends on how signals, queries and messages overtake one another; a test sees one order, and an order that goes wrong leaves a wrong picture only until the next resize.",
  ["app.go:appRunner.handleResize", "tty.go:appRunner.checkResize", "signals_unix.go:appRunner.listenForResize"])

p("C135", "A cancelled app does not report success, and an app runs once",
  "If the context of an app is done while Run is at work (cancelled from outside or after the panic of a command), Run does not return a model without an error any more, whatever comes afterwards, a quit message included; if Init, Update and the drawing do not panic, the caller gets ErrKilled or another error. Because Run itself cancels the context when it ends well, the same App value cannot be run with success a second time.",
  "all programs, all executions of the goroutines of App.Run, all moments at which the context is cancelled before Run has looked at it after a quit message, all continuations in which Run returns; all pairs of runs of one App value, one after the other",
  "The quit message and the cancellation race; a test sees one of the orders, and only few moments for the cancellation.",
  ["app.go:App.Run", "app.go:App.WithContext", "app.go:appRunner.Run", "app.go:appRunner.eventLoop", "app.go:appRunner.shutdown"])

p("C136", "What is typed is seen at last",
  "In an app that keeps running, every input that is read from the terminal is handed to Update at some later moment, and from then on, whenever the app waits for the next message and knows the size of its window, the terminal shows the frame of a model that Update has made of all the messages taken so far, this input in its place among them. If the window has stopped changing there is such a moment after every other one: the user sees the answer to every key.",
  "all programs whose models are drawn within their area without a panic; all infinite executions (resting included) in which the event loop runs from some moment on without the context being done, under every fair scheduler, where calls of commands end; all window changes while no step is taken; terminal emulators as in C12",
  "It is a statement about infinite executions under all fair schedulers, and about what an emulator makes of all the bytes written since the start; a test looks at one schedule and at buffers.",
  ["app.go:App.Run", "app.go:appRunner.eventLoop", "app.go:appRunner.draw", "tty.go:appRunner.readLoop", "terminal.go:Terminal.Draw"])

p("C137", "The areas of a layout get into the variables they are meant for",
  "Split returns one area for each constraint (and one spacer more); Assign gives each variable the area of its constraint, skips nil, and writes nothing else; if a variable is given twice the later area wins; it panics if and only if a pointer other than nil has no area. Unwrap to Unwrap4 return all areas in order for that many constraints and panic if there are fewer.",
  "all layouts and areas for which Split returns, all map orders; all lists of pointers, with repetitions and nil",
  "A test tries few numbers of constraints and pointers and never pointers to one variable.",
  ["layout.go:Splitted.Assign", "layout.go:Splitted.Unwrap", "layout.go:Splitted.Unwrap2", "layout.go:Splitted.Unwrap3", "layout.go:Splitted.Unwrap4", "layout.go:Layout.Split"])

p("C138", "After its window has changed a running app fills it again",
  "When the window of a running app has come to rest and its size is found once more, then from some moment on, for ever, the app knows the size, and whenever it waits for a message the terminal shows the frame of the current model, drawn for an area as large as the window. If the app knows the size already, this holds at once.",
  "all programs whose models are drawn within their area without a panic; all infinite executions (resting included) and fair schedulers; all changes of the window before it comes to rest, at moments at which no step is taken; the event loop runs and the context is not done from that moment on, and the sizes that the app is told from then on are the size of the window (C134 tells when that is so; commands may send sizes as well)",
  "It speaks about all later moments of infinite executions and about the screen of an emulator whose window was changed at arbitrary times.",
  ["app.go:appRunner.handleResize", "app.go:appRunner.eventLoop", "tty.go:appRunner.checkResize", "terminal.go:Terminal.Resize", "terminal.go:Terminal.Draw"])

p("C139", "What is typed arrives in the order typed, each input once",
  "Whatever commands run and whatever the scheduler does, the inputs recognised by the read loop are handed to the event loop in the order in which they were typed, none twice and none left out: those handed over, then at most one in hand, then at most one given up, are exactly those recognised. One is given up only after the context was cancelled, and then it is the last. Until then all of them but the one in hand are among the messages that the event loop took, in this order.",
  "all programs, all commands, sequences and batches, all finite runs under all schedulers, all inputs, errors and ends of input; inputs as recognised (C103 is about bytes), so what is still in the buffer of the read loop when it ends counts as not typed",
  "Messages of keys and of commands go through one channel from many goroutines; a test sees one interleaving.",
  ["tty.go:appRunner.readLoop", "input.go:readAnsiInputs", "app.go:appRunner.eventLoop", "app.go:appRunner.handleCommands"])
