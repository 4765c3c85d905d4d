# Formal model of metafates/bento — design

The model is written in Lean 4 (`lean/Verif`).  It is a hand translation of the Go
source in `/repo`, function by function; every definition cites the file and
lines it models and every simplification is stated in that comment.

Files: `properties.jsonl` (the properties), `MANIFEST.json` (which theorems prove
which property, and what is missing), `AXIOMS.md` (the axioms each property theorem
depends on), `seeded/LOG.jsonl` (wrong models that were tried against the
theorems), `tools/` (scripts that generate the first two, and the mutation runner).

## 1. Layout of the development

| model | what | Go source |
|---|---|---|
| `Model/Geometry` | Position, Rect, Padding | position.go rect.go padding.go |
| `Model/Style` | Modifier bits, Style, Cell | style.go cell.go internal/bit |
| `Model/Buffer` | Buffer with panics as `none` | buffer.go |
| `Model/Uniseg` | interface of the segmentation library; Grapheme | (github.com/rivo/uniseg), internal/grapheme |
| `Model/Utf8` | UTF-8 decoding as Go does it | (unicode/utf8) |
| `Model/Ansi`, `Backend`, `Terminal` | sequences, byte encodings, Draw, double buffering | internal/ansi terminal_backend.go terminal.go frame.go viewport.go |
| `Model/Casso`, `Layout` | Cassowary solver, Layout.Split, rounding | internal/casso layout.go constraint.go flex.go spacing.go |
| `Model/Input`, `Mouse` | byte stream → messages | input.go key_other.go mouse.go |
| `Model/Text`, `Tabs` | spans, lines, texts; Print, NewBuffer; tabs | widget/textwidget widget/tabswidget |
| `Model/Reflow`, `Paragraph` | wrapping, truncation, paragraphs | internal/reflow widget/paragraphwidget |
| `Model/Block`, `ListWidget`, `Scroll`, `Gauge`, `Clear`, `Popup`, `Throbber`, `InputField` | widgets | widget/* |
| `Model/App` | goroutines and channels as an explicit-step machine | app.go cmd.go tty.go signals_unix.go |
| `Model/Resize` | the window, its signal, and the goroutines that tell its size | app.go tty.go signals_unix.go |
| `Model/Console`, `RawMode` | records of the Windows console; terminal settings | key_windows.go terminal_backend.go terminal_backend_unix.go |
| `Model/Slices` | slices with backing arrays (aliasing) | `append` in builders; widget/inputwidget |
| `Model/Splitted` | `Assign`, `Unwrap`…`Unwrap4` over numbered variables | layout.go (`Splitted`) |

`Spec/*` holds what the properties are stated with: a terminal emulator
(`Spec/Screen`), command and frame histories (`Commands`, `Frame`, `Terminal`),
linear programs (`Linear`), layouts (`Layout`), decoders (`Input`), an abstract
editor (`InputField`), wrapping without widgets (`Reflow`, `Paragraph`), regions
of cells (`Widget`, `Text`, `Block`, `Tabs`), traces of the event loop (`App`), an app together
with the screen it draws on (`Live`), and values without sharing (`Slices`).  `Lemmas/*` are helper lemmas; `Props/*`
are the property theorems, with non-vacuity `example`s and negation witnesses.

`Lemmas/Fast` is a second, list-based formulation of the solver that can be
evaluated; `Lemmas/FastOk` and `split_fast` prove that it has the same outcomes as the
model for every map order.  It is used for concrete layouts and to run the repository's own
layout tests on the model (`Tests/Layout`: all 151 cases pass).  `Tests/Widgets` runs the
repository's text, span and list tests on the model.  These are tests, not proofs; they
check that the model says what the code says.
`Lemmas/Quick` is a third formulation, written so that the kernel can run layouts of a few dozen
constraints; `Lemmas/QuickOk` proves that whatever it accepts is what the list-based one returns, and
`Lemmas/Wrapped` that the rectangles follow from the solver's values even after the symbol counter has
wrapped around (`Lemmas/Fuel`: a run that has ended gives the same result with more fuel). It gives up where a division by zero would occur, so the wrapped-around runs shown
contain none.

## 2. Conventions

* Go `int` is modelled by unbounded `Int` (`Nat` where the code keeps it
  non-negative) except where overflow is the point: list and scrollbar navigation
  and products use 64-bit wrap-around, solver ids use 8-bit wrap-around.
* A Go panic is the value `none` (or an explicit `panic` outcome).
* Go map iteration order is an arbitrary choice parameter, so theorems hold for
  every iteration order.
* External libraries (uniseg, termenv, regexp, utf8, bufio, OS) are parameters with
  the assumptions recorded as hypotheses or structure fields, or hand-modelled.
* Specifications are stated separately from the model.
* Where the code does not have the property, a theorem with suffix `_false` (a few
  older ones: `_panics`, `_not_skipped`, `_exceeds_budget`) proves the negation with a
  concrete witness, and a theorem with suffix `_partial` proves what holds.

## 3. Trusted base

* The Lean kernel.  The axioms of every property theorem are listed in
  `AXIOMS.md`: at most `propext`, `Classical.choice`, `Quot.sound`.  No axioms of
  our own, no `sorry`, no `native_decide`, no `bv_decide`.
* The faithfulness of the hand translation, including these idealisations:
  * **Numbers.** `float64` in the solver and the layout is `ℚ` with exact arithmetic,
    and `nearZero` is `= 0`.  `Model/Float` is the same code with every operation
    rounded and with the threshold 1e-8; C96 proves that both have the same outcome for
    layouts of whole cells, for the others exact arithmetic is an idealisation:
    `C96_percentage_false` is a layout with a percentage where `float64` gives a
    segment one cell more than exact arithmetic does (`Len(35)` is drawn 36 wide).
    In the scrollbar and the gauge the rounding to `float64`
    is a parameter, with the laws it is assumed to have (`Rounds` up to 2^53,
    `FloatRound`).  Finite ratios only.
  * **Solver.** The pivot choice is a stream `ω`, the main loop has fuel; running out of
    fuel is the outcome `running`.  C80 proves that the loop ends with
    probability one when the picks are independent; C81 exhibits a stream for which it
    does not.  The check for the same constraint pointer given twice is left out;
    variables are numbered from 0, which C94 proves harmless.
  * **Text.** Strings are sequences of Unicode scalar values, except in the input
    decoder, which works on bytes; invalid UTF-8 in cell symbols is not modelled.
    Segmentation is any `Uniseg`; laws used: `Lawful` (concatenation,
    idempotence, a blank is one column), `Suffix` (cutting off the first cluster does
    not change the rest), `Blanks` (a run of blanks is cut into blanks), and
    `Separable` (output of separate symbols is segmented as such).
    `bufio.Scanner` is modelled with its limit of 64 KiB.
  * **Input.** The regular expressions are hand-modelled as matchers; each read returns
    any chunk of bytes.
  * **Terminal.** Output of a successful operation arrives in full; a failed one arrives
    not at all or up to a byte; `bufio` errors stick.  The emulator starts
    each symbol in its ground state.
  * **Reflow.** Slices handed between the wrapper's parts are values, its pool is a stack
    and `cap > 0` is `≠ []`.
  * **Input field.** The grapheme slice is a value in `Model/InputField`; that this is right
    although the code edits in place is C76, proved over `Model/Slices`.
  * **Gauge.** The field `block` is left out: no function of the package sets it.
  * **Throbber.** Counters are unbounded, the time of a tick is left out.
  * **App.** The user's model is a value; of the terminal only raw mode, alternate screen
    and cursor visibility are kept; a failing terminal operation changes nothing; the list
    of handlers is read as one value; a call of a command of a batch in a sequence
    starts and ends in one step; an unrecovered panic is the state `crashed`.
    In `Spec/Live` each terminal operation is one step of the app and of the screen, a failing one
    leaves anything behind, and drawing does not change the user's model.
    Cancelling the input reader and the dead `waitForReadLoop` are left out.
  * **Example program.** `Split` is a parameter of `Model/Lazygit` that gives the same result for the same layout and
    area each time; it may be any result that the modelled `Split` returns.
  * **Slices.** The capacity of a new array is chosen freely at each allocation;
    `slices.Insert` has its documented result; `NewLine(spans...)` sharing the
    caller's array is not modelled.
  * **Windows console.** Records, virtual key codes, button bits and flags have the numbers of the Windows console, and
    `coninput`'s `Contains` tells whether one of the given keys is pressed; sixteen records per read are not told
    apart from all records in one list.
  * **Raw mode.** `term.MakeRaw` and `term.Restore` change all settings or, when they fail, none.
* Not modelled: Windows files (`*_windows.go`) other than `key_windows.go`, the example programs other
  than `examples/lazygitlike`, `examples/input`, `examples/list` and
  `examples/throbber`, `symbol/` tables other than the
  glyphs used, the `String`/`GoString` helpers, `terminal_backend_unix.go`'s ioctl,
  the raw mode calls themselves (`tty_unix.go`), and the cancellation of blocking reads.

## 4. Properties and how they are proved

| id | modelled | how proved / what was found |
|---|---|---|
| C01–C03 | Rect.Intersection/Contains, Rows/Columns, Inner | membership iff; induction on the loops |
| C04 | Padding builders | record laws; false for WithLeft (sets Bottom) |
| C05, C06, C89 | Style.Patched, Cell.SetStyle, builders and helpers | bitwise extensionality; invariant over builder programs; hex round trip |
| C07, C08 | Buffer ops, SetStyle | invariant by induction over operations; pointwise effect |
| C09 | SetStringN | false for wide clusters at the edge and clusters without width; the exact effect on every text is proved (`C09_exact_partial`, Props/SetString) |
| C10, C11 | Diff | refinement against an emulator grid with wide cells; false for overlapping wide symbols, width 3 |
| C12, C13 | Terminal + Backend + emulator | invariant over histories; false for the colourless profile |
| C14, C15 | modifier diff, pen state | false for Hidden and mixed blinks |
| C16 | encodings | decoder round trip, prefix-freeness; false for nil colours |
| C17 | failing Draw | false: dirty buffer after a failure |
| C18, C58 | Layout + solver | simplex invariant over ℚ, any iteration order |
| C19, C60, C61 | Layout optimality | exchange argument; false for 16 columns, 20 rows, 32 rows (the symbol counter wraps around), and always beyond 257 segments |
| C20, C21, C22 | solver | tableau soundness, feasibility, optimality; proved for lists whose counted symbols (`symbolsFor`) fit in 255; false beyond |
| C80 | solver loop | Bland's rule: no basis repeats under a fixed order; second Borel–Cantelli lemma for random orders |
| C81 | reproducibility of Split | exchange and tiling for lengths with one fill; false: two orders give different columns, one order cycles (evaluated by a list-based solver proved equal to the model) |
| C82, C83 | flex modes | the best solution is unique: total cost bounded below by Lipschitz estimates on sizes and gaps; false: no space around in FlexSpaceAround |
| C90 | rows with a growing segment, all flex modes | the proportional row is the only cheapest one: each growing pair is in balance, everything else costs more than it gains |
| C91 | `FlexLegacy` rows without a fill | one price per cell for the segment that gives way; all others charge more |
| C95 | `FlexLegacy` rows in any area with room for the spacing | exchange argument on the cheapest row: the spacing costs more than any size, a cell moved between two segments cannot pay off |
| C96 | solver and layout with rounded arithmetic | every tableau of a network of differences has coefficients -1, 0, 1 (potentials along the history), constants and costs are integers bounded along the run, so no operation rounds |
| C94 | variable numbers, concurrent splits | interleavings of the two atomic operations of `NewVariable`; renaming of variables commutes with every step of the solver |
| C86 | one segment | the price has a sharp minimum in size and place; a corner argument where no wish fixes the place |
| C84, C85 | corners and whole cells | the reduced tableau determines the basic variables, so tight constraints determine the answer; floor to whole cells keeps tight difference constraints; objective equals a separately stated price |
| C23, C24, C59 | rounding, combinations | floor arithmetic, induction; false: 1.01, second use of a generator |
| C25–C30, C62, C63, C93 | input decoder | induction on input; false: full reads, split sequences, replacement, swallowed escape, mixed reads |
| C97 | all widgets that show text, output of Draw | every drawing step keeps a buffer of harmless symbols harmless; invariant over sessions; false for what goes through SetStringN (tab titles, gauge labels) |
| C98 | spans with clusters of any width | row refinement with a mark list per symbol; false behind a wide symbol |
| C100 | lines and texts with wide symbols | row refinement with a token list (symbol, style, width); the cut on the left may fall inside of a symbol; used for the input field (C39, C99) |
| C101 | all widgets, drawn one after the other | a relation between two runs of the same drawing on buffers that agree on some cells is kept by every drawing step; disjoint drawings then commute |
| C102 | all widgets, Draw, the screen | a property of cells that is kept by writing allowed symbols and allowed styles is kept by every drawing; the frame is then one C12 applies to; with C33 a text can be read off the screen |
| C103 | readAnsiInputs, detectOneMsg | what is read first from the bytes of a list of gestures is the first gesture, or a run of characters in front; induction over the reads with what is held back |
| C104 | reading, State.Update, RenderStateful, Draw, the screen | the state of the field is that of an editor after every session (induction); with room for everything the visible part is the whole text; then C33, C99 and C102 |
| C105 | the event loop, Draw, Resize, the alternate screen, the screen | the machine of the event loop coupled with the terminal and the emulator (`Spec/Live`); invariant by induction over steps and changes of the window; with a panicking command the app can draw over the screen of the shell (`C105_panic_false`) |
| C106 | reading, State.TryUpdate, RenderStateful, Draw, the screen | per read C103, then keys are told apart by their names (C30) and move as C41 says; the drawn list by C72, C40 and C102; letters that come together in one read are lost (`C106_letters_false`) or taken for another key (`C106_word_false`) |
| C107 | texts and all widgets with symbols of two columns, Draw, the screen | the palette of C102 without the condition on the width, C12 and C100; that a one-column symbol follows each wide one is a hypothesis for drawings (it can fail, see C10) and proved for texts |
| C108 | all `With…` chains as lists of calls (Model/Builders.lean) | by induction over the chain against "last one wins" (Spec/Settings.lean); not included: `WithLinesStr`, `Span.WithStylePatch`, the remaining `BorderSet` builders |
| C109 | getItemsBounds and RenderStateful twice | the state settles after one frame, and so does the picture from the second frame on; items of one height settle at once; otherwise the first frame after scrolling can leave rows blank that the second fills (`C109_twice_false`, `C109_blank_false`) |
| C110 | Text.Render, lists, paragraphs | equality of drawings; a paragraph ignores the alignment of its text (`C110_ignored_false`, `C110_centred_false`), its own alignment is covered |
| C111 | block.New, list.New, List.Render, NewState | the defaults put into C43 and C72; the window from the specification of getItemsBounds (C40) |
| C112 | examples/lazygitlike, with all of the above below it | the areas of the panels from C18 and C61 (the errors of the solver are less than half a cell, so the areas are determined); drawings as maps of cells (`Repaints`) composed one after the other; then C102 and C105 |
| C113 | the table of key sequences, Key.String, detectOneMsg | an own table of what terminals send (Spec/Keys), generated by rule, against the table of the library: both are finite and compared whole by `decide`; the bytes that follow by C26. Found: shift+delete of xterm is taken for alt+insert (`C113_delete_false`), ctrl+arrows of rxvt for alt+O and a typed letter (`C113_rxvt_false`); eight more sequences are ones that no terminal listed sends for that key (`Keys.odd`) |
| C114 | parseSGRMouseEvent, parseMouseButton, MouseEvent.String | the report made from button, modifiers and position is parsed by C28; names by a finite table |
| C115 | unknownCSIRe, detectSequence | the regular expression is followed byte by byte; the converse says that only that form is matched |
| C116 | WordWrapper.processInput | an invariant for each of the phases before, in and after the word; false without trimming for the first word of an indented line (`C116_leading_false`) |
| C117 | WordWrapper.processInput | every row of the queue keeps the reason for which it was ended: a decomposition of what had been read into shown text, whitespace and the next word; decompositions are unique |
| C118 | Input.RenderStateful, State.update | the styled version of C104: spans of the line with their styles, then the exact cells of a line (`Repaints`); `C118_cursor` says where the cursor is |
| C119 | examples/input, with popup, fill, block and field below it | the places of the popup from C61 and the integrality of its rounding; clear, frame and title as maps of cells (`Lemmas/TitledBox`); C118 for the field; its runs are typing sessions of C104. The text "ctrl+c" arriving in one read is a key message whose String is "ctrl+c": this program types it, as the field handles letters first, while lazygitlike would quit |
| C120 | Program loop, commands, throbber state, examples/throbber Init and Update | an invariant over all interleavings: the multiset of ticks in commands, threads and the main goroutine is the one tick the throbber accepts; the frame counts those taken. Liveness as reachability: the next frame is at most three steps away. The timer itself is one step of its goroutine |
| C121 | examples/throbber with its Render, layouts, block, text, throbber, terminal, program loop | the cells of the frame from nested layouts (both levels by C85/C101), the paints of text, block and throbber composed by lemmas on repainting; the screen from `C105_waiting_reached` — C105 for programs whose view is only good for the models messages can lead to (here: frame numbers are not negative) — together with C120 for the frame number. How Go writes a duration is a parameter (one short line of visible characters); FPS does not overflow int64 |
| C122 | textwidget Text/Line/Span Render, listwidget List Render | paints composed (`Repaints`): the cell functions `Text.cellIn` and `ListWidget.itemCell` (Spec/Cells) say per cell what is laid over what; rows of items are disjoint, so each cell is touched by one item only. Single-width text; where nothing is shown, wide text is C107's |
| C123 | listwidget getItemsBounds, RenderStateful | for items of one height and padding 0 the three loops have a closed form: `scrolled n o s = max (min o s) (s+1-n)`, shown to be the nearest place at which the selection is visible; the offset left in the state is this one. With items of different heights only C109's weaker statement holds (drawing twice may show more) |
| C124 | examples/list/main.go, with listwidget, popupwidget, paragraphwidget, blockwidget | a session is a sequence of frames, each after a message or none (the program draws after every message, C45); between frames the model is what `RenderStateful` left. The user's view is (selection, first item, popup); the keys act on it through C41's table, drawing through C123's closed form; the picture is written down independently, every cell with colours and modifiers. Solver orders that have not come to an end within the fuel are an explicit alternative (only when the popup is shown). Finding: `currentItem` is never set, so the bottom title is always "100 items" |
| C125 | internal/reflow/wrapper.go, widget/paragraphwidget/paragraph.go | the greedy page (`Spec/Filling.lean`: `fillRows`, and `fillWords` for characters) is written down without the wrapper's pending word, pending whitespace and widths; the wrapper's state is related to it word by word (`Wrap.State.Reads`). C116 and C117 hold of all texts but do not give the rows; here the rows are exact, for words that fit with single blanks between them. On the screen for a paragraph without a block and text of ASCII words (`C125_screen`) |
| C126 | layout.go (`SplitWithSpacers`, `configureFlexConstraints`, `changesToRects`) | unlike C19, C60–C61, C82 and C85 nothing is assumed about what the constraints ask for. If a gap fell short of the spacing while a segment takes room, filling up the gaps and shrinking all that is above its minimum by one factor would cost less: gaps weigh 100100100 per unit, a size at most 100010000, and the costs of pairs (fills, neighbours, equal gaps) shrink with the factor (`Lemmas/Disjoint.lean`). Where the rest of the room goes follows by rearranging the gaps only. If no segment takes room, gaps may fall short (an area smaller than the gaps) — the first alternative of each theorem. Legacy is not among the modes with exact gaps: a fill of a huge weight there may be cheaper to satisfy with a wider gap. Nested layouts: `Nested` (`Spec/Nested.lean`), with C101 for drawing |
| C127 | all widgets | `Page` (`Spec/Page.lean`) is a list of areas and layers; `Layer.cellIn` says what a layer makes of one cell, without loops over the buffer: titles have places (`forwardPlaces`, `backwardPlaces`), everything else comes from the specifications of C47, C67, C70, C73, C77 and C122. Proved by composing drawings that treat every cell by itself (`Repaints`). What a widget finds out by itself is a parameter of the layer, and `Layer.Fits` says that the widget does find it out: the window of a list (C40, C123), the rows of a paragraph (C35, C64, C69, C116–C117, C125; `Rows` as the composer yields them), the places of popups, throbbers and text fields (C50, C86–C87, C99) and the line of a field (C39, C104, C118). Horizontal scrollbars are on the side where the code draws them (C45). Unlike C68 and C92 the titles may overlap and be cut |
| C128 | app.go, cmd.go, tty.go | `Spec/AppLive.lean`: an `Execution` is an infinite sequence of states of the machine of `Model/App.lean`, which may also rest; `Fair` says that each `Turn` (the goroutine of `Run`, each other goroutine, each message on offer, each command on offer) that is possible infinitely often is taken infinitely often. Input and window sizes belong to the surroundings, so fairness asks nothing of them. `KeepsRunning`: the event loop runs from some moment on and the context is never done; panics, failing draws, `Quit` and cancellation end this. The example is an execution with a command of `Init`, one of `Update`, a sequence with a batch, a size and a key, which then rests. What a batch outside of a sequence would have to do is C53, and does not hold |
| C129 | key_windows.go | `Model/Console.lean`; names by the rule of `Keys.called` and `Keys.controlName` (C113). False for ctrl+[ (called ctrl+]), ctrl+] and keys that type nothing (F1, insert, ctrl and alt themselves arrive as the text NUL), for an at sign typed with AltGr (alt+ctrl+@), and for ctrl+pgup (pgup) |
| C130, C132 | key_windows.go | gestures with the buttons held give records and messages (`Spec/Console.lean`), induction over gestures; sizes by induction over records. The library `coninput`, its numbers and `Contains` (one of the keys is pressed) are assumptions; whether its records of wheels name the buttons only is unknown here (an example shows what else would happen) |
| C131 | terminal_backend_unix.go, terminal_backend.go | `Model/RawMode.lean`: settings of any type, `term.MakeRaw` as a function on them; induction over calls. False when raw mode is enabled twice: the settings are then lost |
| C133 | widget/throbberwidget/state.go, app.go | the invariant of C120 along the executions of C128: the tick on its way is called, sent, taken and drawn. The example `spin` is an execution of `examples/throbber` that never rests, with a proof that it is fair |
| C134 | app.go (handleResize), tty.go (checkResize), signals_unix.go | `Model/Resize.lean`: the window, the channel with room for one signal, the two goroutines; a send and its being taken are one step (C128: the event loop takes it at last). Invariant and a measure. False while the app starts: the goroutine for the initial size can be overtaken and then has the last word, and a change before `signal.Notify` is never heard of |
| C135 | app.go (App.Run, appRunner.Run) | `Model/App.lean` as it is; two invariants over all executions: with the context done `Run` cannot get past its look at the context (`Unquit`), and it returns without an error only after cancelling (`Cancelled`). A second `Run` of the same value starts anew except for the context (`State.again`). Safety only: that a cancelled `Run` can also hang is told in C51–C55 |
| C136 | reading, the event loop, Draw, the screen | `Spec/Watched`: a screen beside every moment of an infinite execution (`Spec/AppLive`), moved by the relation of `Spec/Live`; the input is taken by fairness (as C128), the screen is right by C105, the messages taken only grow. Non-vacuity: an infinite execution of the counter of C105, with its screens |
| C137 | layout.go (`Splitted`) | `Model/Splitted`: numbered variables, pointers that may be nil or equal; induction over the pointers, the number of areas from the elements of the layout |
| C138 | sizes, the event loop, Resize, Draw, the screen | over `Spec/Watched` (C136): after the window has come to rest no step changes the size of the screen, knowing it is kept, and a size message, taken by fairness, makes it known; then C105. That the sizes told are right is an assumption, see C134 for the race while the app starts. Non-vacuity: an infinite execution of the counter whose window becomes wider |
| C139 | read loop, event loop, all goroutines | invariant of every step (`Props/Typed`): before the read loop is started nothing is recognised; then one goroutine reads, and all that it ever did is handing over what it read, in order, and giving up at most one input at the end; an input is one message of `readAnsiInputs`, its buffer is not part of the app's model. Non-vacuity: two inputs, one taken, one in hand and then given up |
| C31–C33, C65, C66, C71 | texts | refinement / containment; every text (`C31_exact_partial`); false: long lines, line style, tabs in the part cut off |
| C34–C36, C64, C69, C70 | reflow, paragraphs | invariants of the wrapper; false: third line, long words, wide symbols, whitespace lines; unwrapped text of several lines runs on over one row, which is described exactly |
| C37–C39, C99 | input field | refinement to a zipper; the row by C86; false: residue of Ctrl+W, end, paste, resize, narrow |
| C40, C41, C72 | list | loop invariants; false: negative offsets, selection between renders, areas outside |
| C42, C43, C67, C68, C92 | block | geometry, frame conditions; false outside of the buffer |
| C44–C46, C73 | scrollbar | rounding laws; false: inner area of a left bar, horizontal sides swapped |
| C47 | gauge | false: ratios over 1, overflow |
| C48, C74, C87 | throbber | invariant over ticks, one place for frames of one size; false: restarts, the ellipsis jumps |
| C49, C50 | clear, fill, popup | frame conditions, placement by C86 (Inner and Render solve with separate map orders); false: outside, content never drawn, padding applied twice |
| C51–C55, C75, C88 | event loop | invariants over all schedules; false: commands of a batch never start, no restore on errors or cancellation, deadlocks, panics that Run does not report |
| C56, C76 | slices with backing arrays | invariants over all histories; false: siblings share room |
| C57, C77 | tabs | row refinement; false: outside, wide at the edge, clusters without width |
| C78, C79 | Line.Print, Lines.NewBuffer | row refinement; false for clusters without width |

The notes in `MANIFEST.json` say for each property what the partial theorems leave out.
