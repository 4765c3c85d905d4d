#!/usr/bin/env python3
"""Regenerates properties.jsonl (kept as a script so every line is valid JSON)."""
import json, os
P = []
def p(id, title, statement, quantifier, why, anchors):
    P.append(dict(id=id, title=title, statement=statement, quantifier=quantifier,
                  why_tests_cant=why, anchors=anchors))

# ---------------------------------------------------------------- geometry
p("C01", "Rect.Intersection is exactly set intersection",
  "For any two rectangles a and b, a cell position is contained in a.Intersection(b) if and only if it is contained in both a and b; Intersection is commutative and associative as a set of cells, and its result never has a negative width or height.",
  "all rectangles with arbitrary integer origin and size, all positions",
  "Every clipping decision of every widget rests on it; the input space is eight unbounded integers and the bugs live on boundaries (touching, disjoint, nested, empty).",
  ["rect.go:Rect.Intersection", "rect.go:Rect.Contains"])
p("C02", "Rect.Rows and Rect.Columns partition the rectangle",
  "Rect.Rows returns exactly Height one-line rectangles, in top-to-bottom order, each as wide as the rectangle; every contained position lies in exactly one of them and no other position does. Rect.Columns likewise left-to-right.",
  "all rectangles, all positions",
  "Partition (cover + disjoint + order) over unbounded sizes cannot be enumerated.",
  ["rect.go:Rect.Rows", "rect.go:Rect.Columns"])
p("C03", "Rect.Inner removes exactly the padding",
  "If the padding fits, a position is in Rect.Inner(padding) iff it is at least padding.Left from the left edge, padding.Right from the right edge, padding.Top from the top, padding.Bottom from the bottom; if it does not fit, the result is empty. The inner rectangle is always a subset of the outer one for non-negative padding. Likewise Rect.IndentX(d) keeps exactly the positions at least d columns from the left edge.",
  "all rectangles, all non-negative paddings, all positions",
  "Universally quantified over sizes and paddings incl. the non-fitting boundary.",
  ["rect.go:Rect.Inner", "padding.go:Padding"])
p("C04", "Padding builders set the side they are named after",
  "NewPadding follows the CSS shorthand (1 value: all sides, 2: vertical/horizontal, 4: top,right,bottom,left). Each of WithTop/WithRight/WithBottom/WithLeft changes that side to the given value and leaves the other three unchanged.",
  "all paddings and integer values, every builder",
  "A law over all values and every builder, not one sample per builder.",
  ["padding.go:NewPadding", "padding.go:Padding.WithLeft", "padding.go:Padding.WithTop", "padding.go:Padding.WithRight", "padding.go:Padding.WithBottom"])
# ---------------------------------------------------------------- style
p("C05", "Style patching is an action on cells",
  "Applying style s and then style t to a cell gives the same cell as applying s.Patched(t) once; Patched is associative and NewStyle() is neutral on both sides and leaves every cell unchanged.",
  "all styles (including ones whose added and removed modifiers overlap), all cells",
  "An algebraic law over 2^16-bit masks and optional colours; widgets nest styles arbitrarily deep.",
  ["style.go:Style.Patched", "cell.go:Cell.SetStyle", "style.go:NewStyle"])
p("C06", "Modifier builders cancel and never contradict",
  "After any chain of WithModifier/WithoutModifier (and the Bold, Dim, Italic, ... helpers) and Patched calls starting from NewStyle(), no modifier is both added and removed; the last mention of a modifier wins when the style is applied to a cell, and unmentioned modifiers of the cell are kept.",
  "all finite chains of builder calls, all cells",
  "Invariant over unbounded call histories.",
  ["style.go:Style.WithModifier", "style.go:Style.WithoutModifier", "cell.go:Cell.SetStyle"])
# ---------------------------------------------------------------- buffer
p("C07", "Buffer coordinates are a bijection and cells are independent",
  "A buffer of area a holds exactly a.Area() cells, whatever sequence of cell writes, SetString, SetStyle, Reset and Resize calls is made. For every position inside the area CellAt succeeds, PosOf(index of p) = p, distinct positions address distinct cells, and writing one cell leaves every other cell unchanged; positions outside panic.",
  "all buffers with arbitrary origin and non-negative size, all positions, all operation sequences (resizes to non-negative sizes)",
  "Row-major arithmetic with arbitrary origin over unbounded sizes and histories.",
  ["buffer.go:NewBufferFilled", "buffer.go:Buffer.PosOf", "buffer.go:Buffer.CellAt", "buffer.go:Buffer.indexOf", "buffer.go:Buffer.Resize"])
p("C08", "Buffer.SetStyle styles exactly the visible part of the area",
  "Buffer.SetStyle(area, style) never panics, applies the style to every cell that is both in the buffer and in area, and changes nothing else (in particular no symbol).",
  "all buffers, areas (also partly or wholly outside), styles",
  "Frame condition over every cell and every relative placement of two rectangles.",
  ["buffer.go:Buffer.SetStyle"])
p("C09", "SetStringN stays inside its width budget",
  "SetStringN(x, y, text, maxWidth, style) never panics when (x,y) is in the buffer, writes only cells of row y in columns [x, min(x+maxWidth, right edge)), skips zero-width graphemes and control characters, and returns the column just after the last column written.",
  "all buffers, positions, texts (any grapheme widths), budgets and styles",
  "Depends on arbitrary interleavings of zero-, single- and double-width graphemes at every distance from the edge.",
  ["buffer.go:Buffer.SetStringN", "buffer.go:Buffer.SetString"])
p("C10", "Diff is a correct patch",
  "If the terminal shows frame `prev`, then writing exactly the cells returned by prev.Diff(next) makes the terminal show `next`, including wide characters that are overwritten by, or overwrite, narrow ones.",
  "all pairs of same-size frames made of single- and double-width symbols in which a double-width symbol does not start in the last column nor hide another double-width symbol",
  "Quantifies over all pairs of frames; the interaction of skipping and invalidation only shows for specific local patterns anywhere in the frame.",
  ["buffer.go:Buffer.Diff"])
p("C11", "Diff is minimal",
  "Diffing a frame with itself reports nothing. Cells are reported at most once, in row-major order. If all symbols are single-width a cell is reported if and only if it changed; otherwise a cell is reported only if it changed or lies right behind a double-width symbol of either frame.",
  "all pairs of same-size frames made of symbols at most two columns wide",
  "Universal over frames; redundancy is invisible to output-comparison tests.",
  ["buffer.go:Buffer.Diff"])
# ---------------------------------------------------------------- terminal
p("C12", "After every Draw the screen shows exactly the frame",
  "For every history of Draw, Resize and external screen corruption followed by Resize, starting from NewTerminal on a blank screen, interpreting all bytes written by the terminal leaves the screen showing exactly the cells (symbol, colours, modifiers) of the last drawn frame.",
  "all finite histories of draws with arbitrary widgets and resizes to arbitrary sizes; colour-capable profiles; frames without hidden/combined-blink modifiers and with well-formed wide cells; symbols that do not join with their neighbours",
  "State carried between frames (two buffers, cursor, pen attributes) is only wrong after particular histories.",
  ["terminal.go:Terminal.Draw", "terminal.go:Terminal.Flush", "terminal.go:Terminal.SwapBuffers", "terminal.go:Terminal.Resize", "terminal_backend.go:DefaultBackend.Draw"])
p("C13", "Every frame starts blank",
  "The buffer passed to the widget by Terminal.Draw has the size of the viewport and only empty cells, whatever was drawn, resized or cleared before; so the displayed frame depends only on the widget and the size, not on history.",
  "all finite histories of successful Draw/Resize/Clear operations",
  "History quantification; stale cells only appear after particular sequences.",
  ["terminal.go:Terminal.Draw", "terminal.go:Terminal.SwapBuffers", "terminal.go:Terminal.Clear", "terminal.go:Terminal.Resize"])
p("C14", "Modifier transitions reach the requested attributes",
  "Starting from a terminal whose attributes are exactly `from`, emitting the modifier diff from→to leaves the terminal with exactly the attributes `to`.",
  "all pairs of modifier sets",
  "All pairs of 2^9 modifier sets, with shared reset codes (bold/dim, slow/rapid blink).",
  ["terminal_backend.go:_StyleModifierDiff", "internal/ansi/attr.go", "style.go:Modifier"])
p("C15", "Draw leaves the pen neutral and the cursor as requested",
  "After Draw the terminal's colours and attributes are the defaults, so text printed by anything else is unstyled; the cursor is hidden unless the frame asked for a cursor position, in which case it is visible at that position.",
  "all histories and frames of C12, all states of the screen, optional cursor positions on the screen",
  "Needs the whole emitted stream for every frame.",
  ["terminal_backend.go:DefaultBackend.Draw", "terminal.go:Terminal.Draw"])
p("C16", "Terminal commands are decoded by the terminal as intended",
  "The byte encodings of cursor movement, colours, attributes, clearing and mode switching decode, by the ECMA-48/xterm grammar, to the intended command with 1-based coordinates, and concatenated output decodes unambiguously to the sequence of commands (text without control characters in between).",
  "all command sequences with arbitrary non-negative coordinates, colours and printable text",
  "Unambiguity of the concatenation of arbitrarily many commands.",
  ["internal/ansi/command.go", "internal/ansi/attr.go", "terminal_backend.go:DefaultBackend.Draw"])
p("C17", "A failed Draw can be retried",
  "If Draw returns an error (the output failed at any point), a later successful Draw still makes the screen show exactly its frame, and the widget still starts from a blank buffer.",
  "all crash points inside a draw, all frames",
  "Quantifies over every prefix of the output at which the write can fail.",
  ["terminal.go:Terminal.Draw", "terminal.go:Terminal.Flush"])
# ---------------------------------------------------------------- layout
p("C18", "Split returns well-formed segments inside the area",
  "Layout.SplitWithSpacers never fails; it returns one segment per constraint and one more spacer than segments; every segment and spacer lies within the padded area along the layout direction, has the padded area's full extent across it, and segments have non-negative size.",
  "all areas, paddings, directions, flex modes, spacings and constraint lists, all orders in which the solver may iterate its maps",
  "The solver result is a fixpoint of a search whose order is randomised by Go map iteration; tests see a few areas and orders.",
  ["layout.go:Layout.SplitWithSpacers", "layout.go:Layout.split", "layout.go:changesToRects", "internal/casso/solver.go"])
p("C19", "Legacy flex tiles the area",
  "With FlexLegacy and zero spacing the segments tile the padded area: the first starts at its start, each next one starts where the previous one ends, and the last ends at its end, so no cell is lost or covered twice.",
  "all areas, all non-empty constraint lists (sum of fill weights below 10^6), all solver iteration orders",
  "Global optimality argument over all inputs and pivot orders.",
  ["layout.go:configureFlexConstraints", "layout.go:configureConstraints", "layout.go:configureFillConstraints", "layout.go:changesToRects"])
p("C20", "Solver never violates a required constraint",
  "After any sequence of successful AddConstraint calls, the variable values reported by the solver satisfy every required constraint added so far.",
  "all constraint sequences, all map iteration orders",
  "Simplex invariant over arbitrary constraint histories and pivot choices.",
  ["internal/casso/solver.go:Solver.AddConstraint", "internal/casso/solver.go:Solver.optimize", "internal/casso/solver.go:Solver.FetchChanges"])
p("C21", "Solver minimises the weighted violation",
  "After any sequence of successful AddConstraint calls, no assignment satisfying the required constraints has a smaller strength-weighted sum of violations of the non-required constraints than the reported one.",
  "all constraint sequences, all competing assignments, all map iteration orders",
  "Optimality against all real assignments.",
  ["internal/casso/solver.go:Solver.optimize", "internal/casso/solver.go:Solver.createRow"])
p("C22", "Solver symbols never collide",
  "Distinct variables and constraints of one layout are represented by distinct solver symbols, for any number of constraints.",
  "all constraint lists of any length",
  "Only fails beyond a size (8-bit counter); small tests always pass.",
  ["internal/casso/solver.go:Solver.idTick", "internal/casso/casso.go:_Symbol"])
p("C23", "Rounding to cells keeps order and adjacency",
  "Converting solver coordinates to cells is monotone and maps integral coordinates to themselves, so ordered edges stay ordered, coincident edges stay coincident, and no rectangle at non-negative coordinates grows by a full cell or more (by more than 1.01 cells at any coordinates).",
  "all pairs of rational edges (every float64 is one), negative ones included",
  "Real-valued input.",
  ["layout.go:changesToRects"])
p("C24", "Every pair of fill constraints is compared exactly once",
  "The enumeration used to balance fill segments yields every unordered pair of distinct segments exactly once, in lexicographic order, and terminates.",
  "all numbers of segments from two on (the layout asks for pairs only then; below that the enumeration panics)",
  "Unbounded n.",
  ["layout.go:combinations", "layout.go:nextCombination", "layout.go:binomial"])
# ---------------------------------------------------------------- input
p("C25", "The input parser makes progress and accounts for every byte",
  "On every non-empty input chunk the decoder either asks for more data or consumes at least one and at most all available bytes; over any sequence of reads each byte received is consumed by exactly one message, in order, and none is consumed twice, dropped or left over when the input goes idle (except an unterminated paste).",
  "all byte strings, all ways the reads are chunked",
  "All byte strings times all chunkings.",
  ["input.go:readAnsiInputs", "input.go:detectOneMsg"])
p("C26", "Known key sequences are decoded by longest match",
  "If the input starts with known key escape sequences, the decoded key is the one of the longest known sequence that is a prefix of the input and exactly its bytes are consumed; an ESC followed by a known sequence is that key with Alt.",
  "all inputs starting with a table sequence followed by arbitrary bytes",
  "Arbitrary continuation bytes.",
  ["input.go:detectSequence", "input.go:sequences", "input.go:extSequences"])
p("C27", "Bracketed paste is delivered verbatim",
  "Text between the bracketed-paste markers is delivered as one key message marked Paste whose runes are exactly the (valid) runes pasted, with no key interpretation, whatever control or escape sequences it contains other than the end marker; input after the end marker is decoded normally.",
  "all pasted byte strings not containing the end marker, all continuations",
  "All pasted strings, including ones containing key sequences and mouse reports.",
  ["input.go:detectBracketedPaste"])
p("C28", "Mouse reports round-trip",
  "Every SGR (and, in range, X10) mouse report encodes button, modifiers, action and 0-based position; decoding the terminal's report of an event yields that event and consumes exactly the report.",
  "all buttons, modifier combinations, actions and coordinates, arbitrary following bytes",
  "Unbounded coordinates and continuations.",
  ["mouse.go:parseSGRMouseEvent", "mouse.go:parseX10MouseEvent", "mouse.go:parseMouseButton", "input.go:detectOneMsg"])
p("C29", "Typed text arrives unchanged however it is chunked",
  "For text made of printable characters, concatenating the runes of the produced key messages gives exactly the text that was sent, whatever way the operating system chunks the reads.",
  "all printable texts, all chunkings",
  "All texts times all chunk boundaries (including inside a multi-byte character at the 256-byte read limit).",
  ["input.go:readAnsiInputs", "input.go:detectOneMsg"])
p("C30", "Key names identify keys",
  "Two key messages with the same Key.String() are the same key with the same runes, modifiers and paste flag, so key bindings compared by name never fire for a different key.",
  "all pairs of keys",
  "All pairs of keys including multi-rune input.",
  ["input.go:Key.String", "input.go:keyNames"])
# ---------------------------------------------------------------- text
p("C31", "Splitting a string into lines loses nothing",
  "NewTextStr(s) has one line per newline-separated line of s, and String() joined with newlines gives back s (for text without carriage returns or trailing newline).",
  "all strings",
  "All strings, including extremely long lines.",
  ["widget/textwidget/line.go:NewLinesStr", "widget/textwidget/line.go:NewLineStr", "widget/textwidget/text.go"])
p("C32", "Rendering a span never leaves its area",
  "Span.Render, Line.Render and Text.Render never panic and change only cells inside the intersection of the given area and the buffer, for any text and alignment.",
  "all texts (any grapheme widths incl. zero), styles, alignments, areas and buffers",
  "All texts and all placements.",
  ["widget/textwidget/span.go:Span.Render", "widget/textwidget/line.go:Line.Render", "widget/textwidget/text.go:Text.Render"])
p("C33", "A line is shown at its alignment",
  "A line of single-width text that fits is shown completely, starting at column 0 (left), floor((W-w)/2) (center) or W-w (right) of its area; a line that does not fit shows exactly W consecutive columns: its prefix, its middle or its suffix.",
  "all texts of single-width clusters, all widths W of areas inside the buffer, all alignments",
  "All text lengths relative to all widths (parity!).",
  ["widget/textwidget/line.go:Line.renderWithAlignment", "widget/textwidget/span.go:spansAfterWidth"])
p("C34", "An unwrapped paragraph shows one text line per row",
  "A paragraph without wrapping shows line i of its text on row i (minus vertical scroll), cut to the area width.",
  "all texts, areas and scroll offsets",
  "All multi-line texts.",
  ["widget/paragraphwidget/paragraph.go", "internal/reflow/truncator.go"])
p("C35", "Word wrapping preserves text and respects the width",
  "The word wrapper outputs all non-whitespace graphemes (not wider than the line) in order, none lost, duplicated or reordered, and every output line is at most as wide as the maximum width.",
  "all inputs, all widths, trim on or off",
  "All texts; depends on state left over from earlier wraps.",
  ["internal/reflow/wrapper.go"])
p("C36", "A paragraph never draws outside its area",
  "Paragraph.Render never panics and changes only cells inside the area (clipped to the buffer).",
  "all texts, scrolls, wraps, alignments, areas",
  "All texts and geometries.",
  ["widget/paragraphwidget/paragraph.go:Paragraph.Render"])
# ---------------------------------------------------------------- input widget
p("C37", "The text input is a list with a cursor",
  "For every sequence of editing operations (typing, cursor movement, backspace, delete line, key messages other than the delete-word key, which C38 covers) the input state's text and cursor equal those of the abstract editor (characters before / after the cursor), and the cursor stays within [0, length].",
  "all sequences of operations, all typed strings",
  "All histories.",
  ["widget/inputwidget/state.go"])
p("C38", "Delete-word removes exactly the word before the cursor",
  "DeleteWordUnderCursor removes the whitespace run directly before the cursor and the word before it, leaves the rest of the text unchanged and leaves the cursor right after the remaining prefix, with no invisible residue.",
  "all texts and cursor positions",
  "All texts and positions.",
  ["widget/inputwidget/state.go:State.DeleteWordUnderCursor", "widget/inputwidget/state.go:State.deleteWhile"])
p("C39", "The input viewport shows the cursor and never panics",
  "Rendering an input never panics, shows a contiguous part of the text that fits the available width, and the cursor lies within the shown part.",
  "all texts, cursors, offsets left over from earlier renders, area widths",
  "All combinations of leftover offset, cursor and width.",
  ["widget/inputwidget/state.go:State.getBounds", "widget/inputwidget/input.go:Input.RenderStateful"])
# ---------------------------------------------------------------- list
p("C40", "The selected list item is visible and shown items fit",
  "For every list, height and leftover offset, the range of items chosen for display is contiguous and within the list, its total height fits the area, and when an item is selected that by itself fits the area, the item is inside the range, together with as many items on both sides as the scroll padding asks for and the area has room for. Without padding, a selection that is visible from the offset on leaves the offset alone.",
  "all non-empty item height lists, all non-negative offsets, selections, scroll paddings and area heights",
  "All combinations; the window slides depending on leftover state.",
  ["widget/listwidget/list.go:List.getItemsBounds", "widget/listwidget/list.go:List.applyScrollPaddingToSelectedIndex"])
p("C41", "List navigation moves and clamps",
  "SelectNext/SelectPrevious/SelectFirst/SelectLast/ScrollUpBy/ScrollDownBy move the selection by the stated amount and clamp at the first and last item; moving down never moves the selection up.",
  "all sequences of navigation operations and renders, all list lengths",
  "All histories, including several operations between two renders.",
  ["widget/listwidget/state.go"])
# ---------------------------------------------------------------- block etc
p("C42", "Block.Inner is the area minus borders, titles and padding",
  "Every cell of Block.Inner(area) lies in area and not on a drawn border or title row, and when the area is large enough Inner is exactly the area shrunk by one cell per bordered/titled side and by the padding.",
  "all areas of non-negative size, border sets, title placements, non-negative paddings",
  "All geometries and border subsets.",
  ["widget/blockwidget/block.go:Block.Inner", "widget/blockwidget/block.go:Block.hasTitleAtPosition"])
p("C43", "Block.Render draws only on its border and inside the buffer",
  "Block.Render never panics and, apart from applying the block style, changes only border and title cells of the area clipped to the buffer; the inner area keeps its symbols.",
  "all areas (also partly outside of the buffer), buffers, border sets, titles",
  "All placements.",
  ["widget/blockwidget/block.go:Block.Render", "widget/blockwidget/block.go:Block.renderBorders", "widget/blockwidget/block.go:Block.renderTitles"])
p("C44", "Scrollbar thumb geometry",
  "The start track, thumb and end track lengths always add up to the track length, the thumb is at least one cell, touches the start at position 0 and the end at the last position, and never moves backwards when the position grows.",
  "all track lengths, content lengths, viewport lengths (positive, and small enough that the products of lengths are exact in float64, that is at most 2^53) and all positions",
  "All integer combinations with rounding.",
  ["widget/scrollwidget/scroll.go:Scroll.partLens", "widget/scrollwidget/scroll.go:Scroll.barSymbols"])
p("C45", "Scroll.Inner leaves room exactly for the bar",
  "Scroll.Inner(area) and the strip the scrollbar is drawn on are disjoint and together cover the area, for every orientation; the bar is on the side its orientation names.",
  "all areas, all orientations",
  "All areas and orientations.",
  ["widget/scrollwidget/scroll.go:Scroll.Inner", "widget/scrollwidget/scroll.go:Scroll.scrollbarArea"])
p("C46", "Scroll position stays in range",
  "Under any sequence of Next/Prev/First/Last/Scroll operations the scroll position stays within [0, contentLength-1], and Next/Prev are inverse away from the ends.",
  "all operation sequences, all content lengths from 1 to 2^62",
  "All histories.",
  ["widget/scrollwidget/state.go"])
p("C47", "Gauge fill is proportional, monotone and inside its area",
  "A gauge fills round(ratio*width) columns of every row, never more than the width, never less for a larger ratio, and changes no cell outside its area; ratios outside [0,1] are rejected.",
  "all ratios, areas, labels",
  "Real-valued ratio and all widths.",
  ["widget/gaugewidget/gauge.go:Gauge.render", "widget/gaugewidget/gauge.go:Gauge.WithRatio"])
p("C48", "A throbber never speeds up",
  "However many tick commands are started and in whatever order their messages arrive, each throbber accepts at most one pending tick after it has advanced: stale ticks and ticks of other throbbers change nothing, so the animation advances one frame per accepted tick.",
  "all interleavings of tick messages of any number of throbbers",
  "All message interleavings.",
  ["widget/throbberwidget/state.go:State.TryUpdate", "widget/throbberwidget/set.go:Frame"])
p("C49", "Clear and Fill affect exactly their area",
  "The Clear widget resets exactly the cells of area∩buffer and the Fill widget writes its cell symbol and style to exactly those; neither panics.",
  "all areas and buffers",
  "Frame condition on all cells and placements.",
  ["widget/clearwidget", "widget/fillwidget"])
p("C50", "A popup shows its content inside its frame",
  "Popup.Render clears the popup area, draws the block and renders the content inside Popup.Inner(area); cells outside the popup keep their content.",
  "all areas, sizes and contents",
  "All geometries.",
  ["widget/popupwidget/popup.go"])
# ---------------------------------------------------------------- app
p("C51", "Update sees every message once, in order, and each view is current",
  "The model returned by Run is the result of folding Update over the messages delivered to the event loop, in delivery order, each exactly once; after each Update the frame drawn is that of the resulting model; no Update happens after the quit message.",
  "all schedules of producer goroutines, all message sequences, all models (what Run returns after a panic in the model's own code is C88)",
  "All interleavings.",
  ["app.go:appRunner.eventLoop", "app.go:appRunner.Send", "app.go:appRunner.draw"])
p("C52", "Sequence runs commands in order",
  "Sequence(c1,...,cn) starts command i+1 only after command i's message was delivered to the event loop (or the app was cancelled), for every schedule.",
  "all schedules, all command lists",
  "All interleavings.",
  ["cmd.go:Sequence", "app.go:appRunner.eventLoop"])
p("C53", "Batch runs all its commands",
  "Every non-nil command passed to Batch and returned from Update or Init is eventually executed and its message delivered to Update, if the app keeps running.",
  "all schedules, all command lists",
  "All interleavings.",
  ["cmd.go:Batch", "app.go:appRunner.eventLoop", "app.go:appRunner.handleCmd"])
p("C54", "The terminal is restored on every exit",
  "Whenever Run returns (quit, context cancellation, input or draw error, panic), raw mode is off, the alternate screen is left, and the cursor is visible.",
  "all executions and exit causes",
  "All executions/exit paths.",
  ["app.go:appRunner.Run", "app.go:appRunner.shutdown", "app.go:appRunner.recoverFromPanic", "tty.go:appRunner.restoreTerminal"])
p("C55", "The event loop never deadlocks",
  "From every reachable state, if the context is cancelled or an error occurs, Run returns: the event loop is never blocked forever on a channel.",
  "all schedules, cancellation points and draw failures",
  "All interleavings and cancellation points.",
  ["app.go:appRunner.eventLoop", "app.go:appRunner.draw", "app.go:appRunner.handleCommands"])
p("C56", "Builders do not modify their receiver",
  "Builder methods that take and return values (Layout.WithConstraints, Line.WithSpans, Text.WithLines, Block.WithTitle) leave the receiver and everything previously derived from it unchanged, so two values derived from one base are independent.",
  "all sequences of builder calls on shared bases",
  "Aliasing of backing arrays depends on slice capacities and call history.",
  ["layout.go:Layout.WithConstraints", "widget/textwidget/line.go:Line.WithSpans", "widget/textwidget/text.go:Text.WithLines", "widget/blockwidget/block.go:Block.WithTitle"])
p("C57", "Tabs stay in their area",
  "Tabs.Render never panics and changes only cells inside the area clipped to the buffer, whatever titles, divider and paddings.",
  "all titles, dividers, paddings, areas",
  "All texts and geometries.",
  ["widget/tabswidget/tabs.go"])

import os
extra = os.path.join(os.path.dirname(__file__), "extra_props.py")
if os.path.exists(extra):
    exec(open(extra).read())
with open(os.path.join(os.path.dirname(__file__), "..", "properties.jsonl"), "w") as f:
    for x in P:
        f.write(json.dumps(x, ensure_ascii=False) + "\n")
print(len(P))
