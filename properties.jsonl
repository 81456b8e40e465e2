{"id": "C01", "title": "SGR attribute codec round trip", "statement": "Encoding an SGR attribute with AppendTo and decoding the resulting control sequence yields the same attribute: DecodeEscape on the encoded bytes, whatever bytes follow them, reports the SGR escape and consumes exactly the encoded bytes, and DecodeSGR on the reported argument returns the original attribute with no error.", "quantifier": "all well-formed attributes (any subset of flags, any unset/8-bit/24-bit foreground and background colour) and all following byte strings", "why_tests_cant": "There are about 2^57 attributes, and the interaction of optional leading fields, separators and trailing bytes cannot be enumerated; each test only pins a handful of combinations.", "anchors": ["ansi/sgr.go:SGRAttr.AppendTo", "ansi/sgr.go:SGRColor.appendFGTo", "ansi/decode.go:DecodeSGR", "ansi/decode.go:DecodeEscape"]}
{"id": "C02", "title": "SGR diff then merge reaches the target", "statement": "For two attributes a and b, merging the difference a.Diff(b) into a gives exactly the display attributes of b, so a program that sends only differences never leaves the terminal with a wrong style.", "quantifier": "all pairs of well-formed attributes, with or without the Clear bit", "why_tests_cant": "The claim is about all pairs of 64-bit attribute values; bugs hide in combinations (dropping a flag while changing a colour) that example tables miss.", "anchors": ["ansi/sgr.go:SGRAttr.Diff", "ansi/sgr.go:SGRAttr.Merge"]}
{"id": "C03", "title": "SGR colours and flags are independent fields", "statement": "Setting the foreground, background or flags of an attribute can be read back exactly and never disturbs the other two fields; an attribute that never had a colour set reports none.", "quantifier": "all 64-bit attribute values and all 25-bit colours", "why_tests_cant": "Bit packing laws range over the whole 2^64 space; an overlap by one bit shows up only for particular colour values.", "anchors": ["ansi/sgr.go:SGRAttr.FG", "ansi/sgr.go:SGRAttr.BG", "ansi/sgr.go:SGRColor.FG", "ansi/sgr.go:SGRColor.BG", "ansi/sgr.go:SGRAttr.SansFG", "ansi/sgr.go:SGRAttr.SansBG"]}
{"id": "C04", "title": "SGR Size is exact", "statement": "SGRAttr.Size returns exactly the number of bytes that AppendTo appends, so a caller that allocates Size bytes neither truncates nor over-reserves.", "quantifier": "all attributes in which every set bit belongs to a defined field", "why_tests_cant": "Size and AppendTo are two separate computations with separate digit-count tables, and agreement must hold for every colour value combination.", "anchors": ["ansi/sgr.go:SGRAttr.Size", "ansi/sgr.go:SGRColor.fgSize", "ansi/sgr.go:SGRAttr.AppendTo"]}
{"id": "C05", "title": "Number arguments decode exactly", "statement": "DecodeNumber reads back any decimal number in its documented range, with optional sign and optional leading separator, reports exactly how many bytes it used, stops at the first non-digit, and reports a range error for a number that does not fit.", "quantifier": "all numbers, all following byte strings, all digit strings of any length", "why_tests_cant": "Overflow behaviour depends on digit strings of unbounded length; only sampled lengths can be tested.", "anchors": ["ansi/decode.go:DecodeNumber"]}
{"id": "C06", "title": "Points and cursor addresses round trip", "statement": "The position sequence built for a point decodes back to that same point: encoding CUP with a point and decoding the argument with DecodePoint returns the point and consumes the whole argument.", "quantifier": "all points with coordinates from 1 up to 2^32-1", "why_tests_cant": "Row/column swaps and digit boundaries must be excluded for every coordinate pair, not for a few.", "anchors": ["ansi/control.go:Seq.WithPoint", "ansi/decode.go:DecodePoint", "ansi/control.go:Seq.AppendTo"]}
{"id": "C07", "title": "Control sequence codec round trip", "statement": "Any CSI sequence written with its arguments is decoded as the same sequence identifier with the same argument bytes, consuming exactly the encoded bytes and ignoring whatever follows; this holds for both the two-byte and the C1 introducer.", "quantifier": "all CSI final bytes, all argument byte strings made of parameter and intermediate bytes, all following byte strings", "why_tests_cant": "Argument strings have unbounded length and the following bytes are arbitrary.", "anchors": ["ansi/decode.go:DecodeEscape", "ansi/decode.go:decodeCSI", "ansi/control.go:Escape.AppendWith"]}
{"id": "C08", "title": "Escape and charset sequences round trip", "statement": "Any ESC sequence, including character-set designations that carry one argument byte, decodes after encoding to the same escape and argument.", "quantifier": "all escape identifiers accepted by the encoder, all single argument bytes, all following byte strings", "why_tests_cant": "The encoder and the decoder each branch on overlapping identifier ranges; agreement has to be shown at every boundary and for any trailing input.", "anchors": ["ansi/control.go:Seq.AppendTo", "ansi/control.go:Escape.AppendWith", "ansi/control.go:Escape.AppendTo", "ansi/decode.go:decodeESC"]}
{"id": "C09", "title": "Sequence builder keeps arguments in order", "statement": "Building a control sequence by repeated With / WithInts calls encodes the identifier with all argument bytes and numbers in the order given, independent of how they are split over calls and independent of how many there are.", "quantifier": "all lists of builder calls of any length with any arguments", "why_tests_cant": "The builder switches from inline to heap storage after three arguments; correctness must hold for every split over any number of calls.", "anchors": ["ansi/control.go:Seq.With", "ansi/control.go:Seq.WithInts", "ansi/control.go:Seq.AppendTo"]}
{"id": "C10", "title": "Sequence Size is an upper bound", "statement": "Size of an escape or sequence is never less than the number of bytes AppendTo produces.", "quantifier": "all escapes and all sequences with any number of byte and integer arguments", "why_tests_cant": "Integer arguments have unbounded digit counts and sequences have unboundedly many of them.", "anchors": ["ansi/control.go:Seq.Size", "ansi/control.go:Escape.Size", "ansi/control.go:Escape.AppendTo"]}
{"id": "C11", "title": "UTF-8 text is decoded faithfully", "statement": "Processing a buffer holding encoded printable text delivers exactly those runes, in order, one event per rune, and consumes every byte; invalid bytes each yield one replacement rune and never stop or desynchronise the decoder.", "quantifier": "all rune strings and all byte strings without escape introducers", "why_tests_cant": "Text length is unbounded and malformed byte strings are arbitrary.", "anchors": ["buffer.go:Process", "ansi/decode.go:DecodeRune", "ansi/decode.go:DecodeEscape"]}
{"id": "C12", "title": "Decoder always makes progress inside bounds", "statement": "Decoding an escape from any non-empty byte string never reads outside the string, never claims more bytes than there are, and a recognised escape always consumes at least one byte, so a decode loop over any finite input terminates.", "quantifier": "all non-empty byte strings", "why_tests_cant": "The input space is all byte strings; fuzzing samples it but cannot exclude a non-terminating or out-of-range input.", "anchors": ["ansi/decode.go:DecodeEscape", "ansi/decode.go:decodeESC", "ansi/decode.go:decodeCSI", "ansi/decode.go:decodeString"]}
{"id": "C13", "title": "Decoding preserves the input bytes", "statement": "While an escape is pending the decoder may rewrite the caller's buffer in place, but it must not lose data: the length is unchanged, bytes after the examined part are untouched, and the rewritten buffer is either a reordering of the original or the original with a two-byte C1 introducer re-encoded as the same control rune.", "quantifier": "all byte strings", "why_tests_cant": "In-place rotation over arbitrary interleavings of control bytes and escapes cannot be enumerated.", "anchors": ["ansi/decode.go:DecodeEscape", "ansi/decode.go:decodeESC"]}
{"id": "C14", "title": "Output stream decodes to what was written", "statement": "Writing any sequence of text runes, SGR attributes and CSI sequences to a buffer and processing the resulting bytes delivers exactly that sequence of events: nothing is merged, lost, duplicated or reordered across item boundaries.", "quantifier": "all finite lists of output items", "why_tests_cant": "Item lists are unbounded and ambiguity could arise at any boundary between two items.", "anchors": ["buffer.go:Buffer.WriteSeq", "buffer.go:Buffer.WriteSGR", "buffer.go:Buffer.WriteRune", "buffer.go:Buffer.Process", "buffer.go:Process"]}
{"id": "C15", "title": "Processing is independent of write chunking", "statement": "Splitting the same bytes over several Write calls gives the same events and the same final state as writing them in one call.", "quantifier": "all byte strings and all ways of splitting them into consecutive writes", "why_tests_cant": "The number of splits is exponential in the length and the length is unbounded.", "anchors": ["buffer.go:Buffer.Process", "screen.go:VirtualScreen.Write", "cursor.go:VirtualCursor.Write"]}
{"id": "C16", "title": "Processing never wedges or hangs", "statement": "Processing any byte string terminates, and after every escape in it is complete no byte is left unprocessed forever: later writes are always reached.", "quantifier": "all byte strings, all later writes, any receiver", "why_tests_cant": "Termination and eventual progress are statements about all inputs and all continuations; a test can only wait for a finite time on finitely many inputs.", "anchors": ["buffer.go:Process", "state.go:Cursor.processEscape", "ansi/decode.go:DecodeMode"]}
{"id": "C17", "title": "Buffer offset stays inside the buffer", "statement": "However writes, skips of just-written bytes, processing, discarding, resetting and partial flushes are interleaved, the processed offset stays between zero and the buffered length, so slicing the buffer never panics and no byte is processed twice.", "quantifier": "all finite sequences of buffer operations and all short-write results of the destination", "why_tests_cant": "An invariant over unbounded operation histories with an adversarial writer.", "anchors": ["buffer.go:Buffer.Process", "buffer.go:Buffer.Discard", "buffer.go:Buffer.WriteTo", "buffer.go:Buffer.Skip"]}
{"id": "C18", "title": "Grid cells are addressed injectively and in range", "statement": "CellOffset succeeds exactly for the points inside the grid's bounds, every offset it returns is a valid index of both cell arrays, and two different points never share a cell.", "quantifier": "all grids obtained from the API (resized grids and nested sub-grids) and all points", "why_tests_cant": "Quantifies over all sizes, all nested sub-rectangles and all points.", "anchors": ["grid.go:Grid.CellOffset", "grid.go:Grid.Resize", "grid.go:Grid.SubRect"]}
{"id": "C19", "title": "Sub-grids are confined views", "statement": "A sub-grid whose requested rectangle starts inside the parent addresses exactly the cells of the intersection of that rectangle with the parent, at the same coordinates as the parent, any other sub-grid is empty, and clearing or writing through it changes no cell outside that rectangle.", "quantifier": "all grids, all rectangles, all nested sub-grids", "why_tests_cant": "Frame conditions must hold for every cell outside of every rectangle.", "anchors": ["grid.go:Grid.SubRect", "grid.go:Grid.Clear", "grid.go:Grid.SubSize", "grid.go:Grid.SubAt"]}
{"id": "C20", "title": "Resize gives the requested size", "statement": "After Resize the grid has the requested size and its arrays have one entry per cell, whatever sizes it had before.", "quantifier": "all sequences of resizes with non-negative sizes on full grids", "why_tests_cant": "History-dependent: wrong only after particular earlier sizes.", "anchors": ["grid.go:Grid.Resize", "grid.go:Grid.IsSub"]}
{"id": "C21", "title": "Plain DrawGrid copies exactly the overlap", "statement": "Drawing one grid onto another without styles copies the top-left min(width) x min(height) block cell by cell and leaves every other destination cell unchanged.", "quantifier": "all pairs of separately stored grids or sub-grids of any sizes (with bounds whose corners are in order)", "why_tests_cant": "Ranges over all sizes, strides and contents, including all cells that must stay unchanged.", "anchors": ["draw.go:DrawGrid", "draw.go:copyGrid"]}
{"id": "C22", "title": "Styled DrawGrid stays inside the overlap", "statement": "Drawing one grid onto another through a style never touches a destination cell outside the overlap, never reads outside the source, and passes the style the point and contents of the cell being drawn.", "quantifier": "all pairs of grids of any sizes and all styles", "why_tests_cant": "Needs every size combination, in particular destinations larger or smaller than sources, for arbitrary style functions.", "anchors": ["draw.go:DrawGrid"]}
{"id": "C23", "title": "Style combination is sequential composition", "statement": "A combined style applies its parts in order, however they are nested, and the no-op style is an identity for combination and leaves cells unchanged.", "quantifier": "all finite lists and nestings of styles, all cells", "why_tests_cant": "Algebraic laws over arbitrary functions and arbitrary nesting depth.", "anchors": ["style.go:Styles", "style.go:NoopStyle", "style.go:styles.Style"]}
{"id": "C24", "title": "Bitmap to braille runes is exact", "statement": "Each braille rune produced for a bitmap position shows exactly the 2x4 block of bits at that position, with bits outside the bitmap rendered as empty, and reading the dots of the runes recovers the bitmap.", "quantifier": "all bitmaps, all positions", "why_tests_cant": "All 256 patterns at all alignments relative to all bitmap edges.", "anchors": ["bitmap.go:Bitmap.Rune", "bitmap.go:Bitmap.RuneSize", "bitmap.go:Bitmap.Get"]}
{"id": "C25", "title": "Bitmap get/set laws", "statement": "Setting a bit inside the bounds makes that bit read back as set and changes no other bit; reads outside the bounds are false and sub-bitmaps address the same bits at the same coordinates.", "quantifier": "all bitmaps, sub-bitmaps and points", "why_tests_cant": "Frame condition over every other point of every bitmap.", "anchors": ["bitmap.go:Bitmap.Get", "bitmap.go:Bitmap.Set", "bitmap.go:Bitmap.SubRect"]}
{"id": "C26", "title": "Loading bitmaps pads to whole rows", "statement": "Loading bit data with a row stride yields a bitmap in which bit (x,y) is data[y*stride+x], with a final partial row padded by unset bits, and parsing lines rejects lines of unequal length.", "quantifier": "all data lengths and strides, all lists of lines", "why_tests_cant": "Padding errors occur only for particular length/stride remainders.", "anchors": ["bitmap.go:Bitmap.Load", "bitmap.go:ParseBitmap"]}
{"id": "C27", "title": "Screen emulation keeps the cursor on screen", "statement": "Feeding any bytes to a virtual screen keeps the cursor inside its bounds, keeps the size of the screen, and never indexes outside the grid.", "quantifier": "all screen sizes of at least 1x1, all byte streams for which processing terminates", "why_tests_cant": "An invariant over unbounded adversarial byte streams.", "anchors": ["state.go:Screen.ProcessANSI", "screen.go:VirtualScreen.Write", "state.go:Screen.clamp"]}
{"id": "C28", "title": "Printing changes exactly one cell", "statement": "Processing a printable rune writes that rune with the current attributes into the cell under the cursor, changes no other cell, and advances the cursor to the next column or the start of the next row.", "quantifier": "all screens with the cursor in bounds, all printable runes", "why_tests_cant": "Frame condition over all cells of all screens and all cursor positions.", "anchors": ["state.go:Screen.ProcessANSI"]}
{"id": "C29", "title": "Erase operations clear the documented region", "statement": "Erase-in-display and erase-in-line clear exactly the documented region (to the end inclusive, from the start inclusive, or everything) and leave every other cell unchanged.", "quantifier": "all screens, all cursor positions, all cells", "why_tests_cant": "Inclusive/exclusive boundaries have to be right for each position of the cursor and each cell.", "anchors": ["state.go:Screen.ProcessANSI", "state.go:Screen.clearRegion"]}
{"id": "C30", "title": "Line feed on the last row scrolls", "statement": "A line feed on the last row moves every row up by one and clears the last row; above the last row it only moves the cursor down.", "quantifier": "all screens and cursor positions", "why_tests_cant": "The claim is about all cells of all screens; tests compare a few pictures.", "anchors": ["state.go:Screen.linefeed", "state.go:Screen.scrollBy"]}
{"id": "C31", "title": "Cursor motion sequences reach the target", "statement": "Asking a tracked cursor to move to a valid point emits a sequence that takes a terminal whose cursor agrees with the tracked one to exactly that point, and afterwards the tracked cursor again agrees with the terminal.", "quantifier": "all tracked positions and all valid targets, on a terminal large enough to hold both", "why_tests_cant": "All pairs of source and target points; the choice of sequence depends on their relation.", "anchors": ["state.go:Cursor.To", "state.go:Cursor.ProcessANSI"]}
{"id": "C32", "title": "Screen updates display the new contents", "statement": "When the recorded prior state describes what a terminal shows, the output of a screen update makes the terminal show exactly the new screen contents, cell for cell, for full redraws as well as differential updates.", "quantifier": "all sizes, all prior and new contents, all prior cursor and attribute states", "why_tests_cant": "Pairs of screens are astronomically many and the emitted sequences depend on the whole scan history.", "anchors": ["state.go:Screen.update", "render.go:writeGridFull", "render.go:writeGridDiff", "screen.go:ScreenDiffer.WriteTo"]}
{"id": "C33", "title": "After an update the recorded state equals the screen", "statement": "After a screen update the recorded prior grid has the same size and contents as the screen, so a second update without changes emits no cell output at all.", "quantifier": "all screens and prior states", "why_tests_cant": "Idempotence for all states; depends on buffer re-use after earlier resizes.", "anchors": ["state.go:Screen.update", "render.go:writeGridDiff", "grid.go:Grid.Resize"]}
{"id": "C34", "title": "Interrupted frame output resumes correctly", "statement": "If flushing a frame is interrupted because the destination would block, later flushes deliver the remaining bytes exactly once and in order, and once the frame is out the recorded real state describes that frame.", "quantifier": "all frames, all short-write schedules", "why_tests_cant": "All ways an adversarial destination can split a frame of any length.", "anchors": ["screen.go:ScreenDiffer.WriteTo", "buffer.go:Buffer.WriteTo", "output.go:Output.Flush"]}
{"id": "C35", "title": "Everything staged is flushed", "statement": "A screen flush always brings the terminal to the current virtual screen, whatever calls (text writes, style writes, cursor moves) were made before it.", "quantifier": "all finite sequences of screen API calls before the flush", "why_tests_cant": "History dependent over unbounded call sequences.", "anchors": ["screen.go:ScreenDiffer.WriteTo", "screen.go:VirtualScreen.WriteSGR"]}
{"id": "C36", "title": "Virtual cursor tracks the terminal", "statement": "After any sequence of virtual cursor operations the tracked position, visibility and attributes equal those of a terminal that started in the tracked state and received the buffered bytes.", "quantifier": "all finite sequences of cursor operations with printable text, moves, styles, show/hide and apply", "why_tests_cant": "A simulation relation over unbounded histories.", "anchors": ["cursor.go:VirtualCursor.Write", "cursor.go:VirtualCursor.To", "cursor.go:VirtualCursor.Apply", "cursor.go:VirtualCursor.WriteSGR", "state.go:Cursor.ProcessANSI"]}
{"id": "C37", "title": "Virtual cursor flush is transactional", "statement": "Flushing a virtual cursor leaves the real state equal to the tracked state if and only if every buffered byte was accepted; on failure the real state is forgotten so that no later relative move relies on it; Reset restores the last flushed state.", "quantifier": "all cursor states and all write outcomes", "why_tests_cant": "All interleavings of partial writes, would-block and hard errors.", "anchors": ["cursor.go:VirtualCursor.WriteTo", "cursor.go:VirtualCursor.Reset"]}
{"id": "C38", "title": "Context combination order", "statement": "Combined contexts are entered in order and stop at the first error; they are exited in reverse order, all of them, and the first error is the one reported; combining never changes previously built combinations.", "quantifier": "all lists and nestings of contexts and all failure patterns", "why_tests_cant": "Quantifies over arbitrary nesting and arbitrary subsets of failing contexts.", "anchors": ["context.go:Contexts", "context.go:contexts.Enter", "context.go:contexts.Exit"]}
{"id": "C39", "title": "Terminal contexts are always exited", "statement": "Running a function within a terminal context always exits the context afterwards, whether the function succeeds, fails or panics, and whether or not entering succeeded; Close is called only at the end of the outermost run; nested runs inside an active run do not enter again.", "quantifier": "all nestings of RunWith / RunWithout and all failure points", "why_tests_cant": "Nesting depth and failure combinations are unbounded.", "anchors": ["term.go:Term.RunWith", "term.go:Term.RunWithout"]}
{"id": "C40", "title": "Mode sequences undo in reverse order", "statement": "The bytes written on entering are the added mode sequences in order; the bytes written on exiting are the matching reset sequences in reverse order, whatever mixture of adding calls built the mode.", "quantifier": "all finite sequences of mode additions", "why_tests_cant": "Unbounded call histories with slice aliasing between the two buffers.", "anchors": ["mode.go:Mode.AddMode", "mode.go:Mode.AddModePair", "mode.go:Mode.AddModeSeq"]}
{"id": "C41", "title": "Terminal attributes are restored", "statement": "Between Enter and Exit the terminal attributes are always the configured modification of the original ones, after any sequence of raw/echo changes, and after Exit they are exactly the original ones.", "quantifier": "all original attributes, all sequences of SetRaw / SetEcho", "why_tests_cant": "All 2^n termios values and unbounded call sequences.", "anchors": ["attr.go:Attr.Enter", "attr.go:Attr.Exit", "attr.go:Attr.SetRaw", "attr.go:Attr.SetEcho"]}
{"id": "C42", "title": "Input file flags are restored", "statement": "Leaving an input context restores exactly the file flags found on entering it, and switching back to blocking mode actually makes reads block.", "quantifier": "all initial flag sets and all sequences of input operations", "why_tests_cant": "History dependent over all flag values.", "anchors": ["input.go:Input.Enter", "input.go:Input.Exit", "input.go:Input.setNonblock", "input.go:Input.buildFlags", "input.go:Input.ReadMore"]}
{"id": "C43", "title": "Input decoding does not depend on read boundaries", "statement": "Decoding input gives the same events however the terminal's bytes are split over reads, as long as every read is followed by decoding all available events.", "quantifier": "all byte strings and all splits into reads", "why_tests_cant": "Exponentially many splits of unboundedly long inputs.", "anchors": ["input.go:Input.Decode", "input.go:Input.decodeRune", "ansi/decode.go:DecodeEscape"]}
{"id": "C44", "title": "Input recordings replay faithfully", "statement": "Reading back a recorded input session returns frames with the recorded time, message, error and bytes, in order.", "quantifier": "all recorded sessions", "why_tests_cant": "Sessions are unbounded lists of frames with arbitrary bytes.", "anchors": ["input.go:ReadInputReplay", "input.go:Input.SetRecording"]}
{"id": "C45", "title": "Output stalls are bounded and flags restored", "statement": "A flush through a non-blocking file always leaves the file's blocking mode as it found it, loses no byte, and never stores more stall records than configured.", "quantifier": "all write outcome sequences and all capacities", "why_tests_cant": "Adversarial writer behaviour over unbounded histories.", "anchors": ["output.go:Output.Flush", "output.go:Output.blockingFlush", "output.go:Output.recordStall"]}
{"id": "C46", "title": "Signals never block the sender", "statement": "Sending to a signal channel never blocks, and at least the first of any burst of signals is delivered to the receiver.", "quantifier": "all interleavings of sends and receives", "why_tests_cant": "All schedules.", "anchors": ["signal.go:Signal.Send", "signal.go:Signal.AsErr"]}
{"id": "C47", "title": "Stopping a background worker always returns", "statement": "Stopping a background worker terminates for every schedule of the stopping goroutine and the worker.", "quantifier": "all interleavings of the worker and the stopper, all error outcomes of the work function", "why_tests_cant": "Deadlocks depend on schedules that tests do not control.", "anchors": ["x/platform/bg.go:bgWorkerCore.Stop", "x/platform/log.go:LogSink.flushWorker"]}
{"id": "C48", "title": "Line editor implements text editing", "statement": "The edit line behaves like a text with a cursor: typing inserts at the cursor, backspace removes the character before the cursor, arrows move within the text, for any mixture of one- and multi-byte characters.", "quantifier": "all editing sessions of any length", "why_tests_cant": "Refinement of an unbounded state machine over UTF-8 bytes.", "anchors": ["x/platform/editline.go:EditLine.Update"]}
{"id": "C49", "title": "Event queries consume exactly the matching events", "statement": "Counting or testing for runes, presses, scrolls or movements marks exactly the matching events as handled, returns their exact count, and leaves all other events as they were; decoding input bytes appends one event per decoded item.", "quantifier": "all event queues and all queries", "why_tests_cant": "Frame conditions over unbounded queues.", "anchors": ["x/platform/event.go:Events.CountRune", "x/platform/event.go:Events.HasTerminal", "x/platform/event.go:Events.CountPressesIn", "x/platform/event.go:Events.DecodeBytes"]}
{"id": "C50", "title": "Log sink indexes lines exactly", "statement": "After any sequence of log writes and reads the recorded line ends are exactly the newline positions of the buffered text, and no write panics.", "quantifier": "all finite sequences of writes and partial reads", "why_tests_cant": "Index invariant over unbounded histories.", "anchors": ["x/platform/log.go:LogSink.Write", "x/platform/log.go:LogSink.Read"]}
{"id": "C51", "title": "Log view window stays in range", "statement": "Whatever scrolling is requested, the visible window of log lines is within the existing lines and no longer than the view.", "quantifier": "all line counts, view heights and scroll amounts", "why_tests_cant": "All integer combinations.", "anchors": ["x/platform/hud.go:LogView.scrollBy", "x/platform/hud.go:LogView.viewWindow"]}
{"id": "C52", "title": "Sized sections read back", "statement": "A section written with a size prefix reads back as exactly the written bytes, leaving the reader at the start of whatever follows.", "quantifier": "all payloads written in any chunks, all following bytes", "why_tests_cant": "Unbounded payloads and chunkings.", "anchors": ["x/platform/replay.go:sizedWriter", "x/platform/replay.go:readSized"]}
{"id": "C53", "title": "Compiled terminfo strings are read correctly", "statement": "Reading a compiled terminfo entry returns for each capability present the NUL-terminated string at its table offset, and the empty string for absent capabilities.", "quantifier": "all well-formed terminfo files", "why_tests_cant": "All table layouts and offsets.", "anchors": ["terminfo/read.go:Terminfo.ReadFrom"]}
{"id": "C54", "title": "Palette lookup returns a nearest colour", "statement": "Looking up a colour in a palette returns the index of a palette entry closest to it in RGB space, and an exact match whenever the palette contains the colour.", "quantifier": "all palettes and all 24-bit colours", "why_tests_cant": "2^24 colours against arbitrary palettes.", "anchors": ["ansi/colors.go:Palette.Index", "ansi/colors.go:Palette.Convert"]}
{"id": "C55", "title": "Rectangle algebra", "statement": "Point membership commutes with the rectangle operations: intersection contains exactly the common points, union contains both operands and is the smallest such rectangle, Eq/In/Overlaps/Empty agree with the sets of contained points, and canonical rectangles are well formed.", "quantifier": "all rectangles and points", "why_tests_cant": "Quantifies over all integer coordinates.", "anchors": ["ansi/geom.go:Rectangle.Intersect", "ansi/geom.go:Rectangle.Union", "ansi/geom.go:Rectangle.Eq", "ansi/geom.go:Rectangle.Overlaps", "ansi/geom.go:Rectangle.Inset", "ansi/geom.go:Rectangle.Canon"]}
{"id": "C56", "title": "Image and terminal coordinates convert both ways", "statement": "Converting points and rectangles between image space and terminal space is a round trip and preserves membership.", "quantifier": "all points and rectangles", "why_tests_cant": "All integer coordinates.", "anchors": ["ansi/geom.go:PtFromImage", "ansi/geom.go:Point.ToImage", "ansi/geom.go:RectFromImage", "ansi/geom.go:Rectangle.ToImage"]}
{"id": "C57", "title": "Mouse reports decode exactly", "statement": "Every extended mouse report sequence decodes to exactly the reported buttons, modifiers, motion and release state at the reported point, and malformed reports are rejected with an error.", "quantifier": "all 256 button codes, all points up to 2^32-1, press and release, all argument byte strings", "why_tests_cant": "All coordinate and code combinations and arbitrary malformed arguments.", "anchors": ["ansi/mouse.go:DecodeXtermExtendedMouse", "ansi/mouse.go:MouseState"]}
{"id": "C58", "title": "Mode set and reset sequences are exact", "statement": "Setting or resetting a mode emits the mode's number with the private marker exactly when the mode is private, and a terminal decoding it recovers the same mode.", "quantifier": "all mode numbers, private or not", "why_tests_cant": "All mode numbers.", "anchors": ["ansi/modes.go:Mode.Set", "ansi/modes.go:Mode.Reset", "ansi/decode.go:DecodeMode"]}
{"id": "C59", "title": "Platform configuration merging keeps the first setting", "statement": "Merging configurations keeps every already set option, takes every unset option from the other configuration, and merging is associative.", "quantifier": "all configurations", "why_tests_cant": "All combinations of options.", "anchors": ["x/platform/config.go:Config.Merge"]}
{"id": "C60", "title": "Grid equality means same size and same contents", "statement": "Eq holds exactly when the two grids have the same size and show the same runes and attributes at every point, with zero runes read as the given one.", "quantifier": "all pairs of grids and sub-grids", "why_tests_cant": "All sizes, views and contents.", "anchors": ["grid.go:Grid.Eq"]}
{"id": "C61", "title": "Transparency styles keep exactly what is missing", "statement": "Drawing through the transparent styles keeps the prior rune, background or foreground exactly where the drawn cell has none, changes nothing else, and the combined background and foreground style acts as the two single ones applied one after the other.", "quantifier": "all pairs of cells and all attribute values", "why_tests_cant": "2^64 attribute values per cell on both sides.", "anchors": ["style.go:TransparentRunes", "style.go:TransparentAttrBG", "style.go:TransparentAttrFG", "style.go:TransparentAttrBGFG"]}
{"id": "C62", "title": "Drawing a bitmap places one rune per block", "statement": "Drawing a bitmap onto a grid draws into each cell of the common block of rune cells the braille rune of the corresponding 2x4 bits, passed through the styles with the cell's prior contents, changes no other cell, and never panics.", "quantifier": "all grids, bitmaps, sub-views and styles", "why_tests_cant": "All sizes and alignments, arbitrary style functions, and a frame condition over all other cells.", "anchors": ["draw.go:DrawBitmap", "bitmap.go:Bitmap.Rune", "bitmap.go:Bitmap.RuneSize"]}
{"id": "C63", "title": "Attribute bytes mean the attribute on a terminal", "statement": "The bytes emitted for an attribute are one control sequence that, read by a standard terminal, puts exactly that attribute's flags and colours over the current rendition; the bytes for the difference of two attributes turn a terminal showing the first into one showing the second; merging into a tracked cursor leaves the terminal showing the merged attribute whatever it showed before.", "quantifier": "all attributes, all terminal renditions, known or unknown cursor attribute", "why_tests_cant": "2^64 attribute pairs and all terminal states; a separate terminal semantics is needed as the judge.", "anchors": ["ansi/sgr.go:SGRAttr.AppendTo", "ansi/sgr.go:SGRAttr.Diff", "state.go:Cursor.MergeSGR"]}
{"id": "C64", "title": "Reading input loses no byte", "statement": "Each read call appends exactly the bytes it took from the file to the input buffer, in order, and returns their exact number; the non-blocking call takes everything available and does not wait.", "quantifier": "all buffer contents, all availability histories of the file including errors, end of file and failing flag calls", "why_tests_cant": "Unbounded histories of adversarial file behaviour.", "anchors": ["input.go:Input.ReadMore", "input.go:Input.ReadAny"]}
{"id": "C65", "title": "Enter and Escape end the editing", "statement": "Pressing Enter submits and pressing Escape cancels the edit line with the text as it is at that key; keys after it change neither the text nor the outcome.", "quantifier": "all texts, all batches of events, all frames", "why_tests_cant": "Depends on how keys happen to be batched into frames.", "anchors": ["x/platform/editline.go:EditLine.Update", "x/platform/editline.go:EditLine.handleControlRune"]}
{"id": "C66", "title": "The edit line is drawn in its box with the cursor in view", "statement": "Each update draws a part of the text that fits the box, with the character at the cursor (or the end of the text) in it, places the user cursor on it within the box, and changes no cell outside the box.", "quantifier": "all texts, cursors, box and screen sizes, and all scroll offsets left by earlier frames", "why_tests_cant": "Scroll offset arithmetic with many boundary cases over unbounded texts.", "anchors": ["x/platform/editline.go:EditLine.Update"]}
{"id": "C67", "title": "Log lines reach the log file", "statement": "While a log file is set, the bytes in the file followed by the deferred bytes are exactly what has been logged, in order; once the background writer has been stopped without an error the file holds everything, and later lines go straight to it.", "quantifier": "all interleavings of logging, notification, stopping and the background writer, with failing writes", "why_tests_cant": "Lost lines need a particular interleaving or a transient write error.", "anchors": ["x/platform/log.go:LogSink.Write", "x/platform/log.go:LogSink.flushWorker", "x/platform/log.go:LogSink.Stop"]}
{"id": "C68", "title": "Truncated text fits its width", "statement": "Text truncated to a width writes at most that many characters: the text itself if it fits, else a prefix of it followed by an ellipsis.", "quantifier": "all texts and widths", "why_tests_cant": "All lengths around the boundary, with multi-byte characters.", "anchors": ["x/platform/hud.go:writeTruncated"]}
{"id": "C69", "title": "Colour conversions keep the RGB value", "statement": "Converting a colour to its 24-bit form or through the generic colour interface keeps its RGB value; the 256 table entries are the standard xterm values; the canonical form of a 24-bit colour is a palette colour with the same RGB value, or the colour itself if there is none; a theme changes exactly the colours it names.", "quantifier": "all colours, including all 2^24 RGB values, and all themes", "why_tests_cant": "The space of colours and themes is too large, and aliases among the table entries are easily missed.", "anchors": ["ansi/sgr.go:SGRColor.To24Bit", "ansi/sgr.go:SGRColor.RGBA", "ansi/colors.go:SGRColorCanon", "ansi/colors.go:ColorTheme.Convert"]}
{"id": "C70", "title": "Combined colour models apply each in turn", "statement": "A combination of colour models converts by applying each of them in order; making a combination does not change what another combination does.", "quantifier": "all lists of models, however nested, and all growth behaviours of slices", "why_tests_cant": "Depends on spare capacity of a shared backing array.", "anchors": ["ansi/colors.go:ColorModels"]}
{"id": "C71", "title": "Terminfo entries are looked for where they should be", "statement": "The search path is only TERMINFO if set, else the user's directory, the components of TERMINFO_DIRS in order (an empty one meaning the default directory) and the default directory; loading reads the first entry file found on it, returns the same entry again later, uses a builtin entry by name or by compatible part of the name if none can be read, and reports an error for an empty name.", "quantifier": "all environment settings, directory contents and names", "why_tests_cant": "All combinations of environment variables and file systems.", "anchors": ["terminfo/terminfo.go:SearchPath", "terminfo/terminfo.go:Load", "terminfo/builtin.go:GetBuiltin"]}
{"id": "C72", "title": "Recorded screen sizes are read back", "statement": "The size message written to a recording is one APC string whose body reads back as exactly that size; other messages leave the size as it was.", "quantifier": "all screen sizes and all other messages", "why_tests_cant": "All sizes.", "anchors": ["x/platform/replay.go:Platform.recordSize", "x/platform/replay.go:parseSize"]}
{"id": "C73", "title": "A replay shows the recorded frames in order", "statement": "During a replay the client is run with exactly the recorded frames, each with its time, bytes and the screen size in effect then, in order and none twice; pausing shows nothing new until resumed or stepped; the client gets no other input.", "quantifier": "all recordings and all sequences of user keys during the replay", "why_tests_cant": "Unbounded recordings interleaved with pause, step and stop keys.", "anchors": ["x/platform/replay.go:replay.update", "x/platform/replay.go:replay.next"]}
{"id": "C74", "title": "SGR sequences read mean what they mean on a terminal", "statement": "When the emulated cursor processes a Select Graphic Rendition control sequence, its attribute afterwards is the rendition a standard terminal would have after the same parameters, starting from the same rendition.", "quantifier": "all parameter lists (any length and order) of plain, indexed and 24-bit parameters, all starting renditions", "why_tests_cant": "Parameter lists are unbounded and every parameter depends on the accumulated state; a separate terminal semantics is needed as the judge.", "anchors": ["state.go:Cursor.processEscape", "ansi/decode.go:DecodeSGR", "ansi/sgr.go:SGRAttr.Merge"]}
{"id": "C75", "title": "Escape identifiers name what they identify", "statement": "The printed name of an escape identifier determines it: two distinct identifiers in the escape range never print alike, escape and CSI identifiers print as the escape with their own final byte, and C1 controls print their standard names.", "quantifier": "all identifiers in the escape range", "why_tests_cant": "Boundary values of three adjacent private-use ranges; a pairwise statement over all identifiers.", "anchors": ["ansi/escape.go:Escape.String", "ansi/escape.go:Escape.ESC", "ansi/escape.go:Escape.CSI", "ansi/escape.go:C1Names"]}
{"id": "C76", "title": "The 24-bit filter keeps everything but makes colours 24-bit", "statement": "Filtering an output stream through to24bit leaves all text and control sequences as they are, apart from colours in SGR sequences, which become the 24-bit colours with the same RGB value; so the filtered stream shows on a terminal what the original shows, with colours deepened.", "quantifier": "all streams of runes and control sequences, cut into reads at any item boundaries", "why_tests_cant": "Unbounded streams; equality of what two different byte streams show on a terminal.", "anchors": ["cmd/to24bit/main.go:processMore", "cmd/to24bit/main.go:readMore"]}
{"id": "C77", "title": "Drawn lines are straight and joined", "statement": "Drawing a line on a bitmap always ends without a panic and sets exactly the points (on the canvas) of a joined line that starts and ends at the given points, is as short as possible, and stays within half a pixel of the ideal line; no other bit changes.", "quantifier": "all pairs of points in all directions, all canvases", "why_tests_cant": "Eight octants and all slopes; termination depends on the accumulated error term.", "anchors": ["cmd/lolwut/main.go:drawLine"]}
{"id": "C78", "title": "The virtual screen shows what a terminal would show", "statement": "Writing text, control sequences, styles and positions to a virtual screen leaves it holding what a standard terminal of that size would show after the same output: every character with its rendition, the cursor, the current rendition and the cursor's visibility; without a panic or hang, and however the output is divided into calls. A cleared screen is what a cleared terminal shows.", "quantifier": "all sequences of calls with all sequences of acts, all sizes, all prior contents", "why_tests_cant": "Unbounded output in a stateful emulator; the judge is a separate terminal semantics, and agreement is a relation between two running states.", "anchors": ["screen.go:VirtualScreen.Write", "screen.go:VirtualScreen.WriteSGR", "state.go:Screen.ProcessANSI", "state.go:Screen.processEscape", "state.go:Cursor.processEscape", "state.go:Screen.Clear"]}
{"id": "C79", "title": "Errors and signals end a run", "statement": "A run goes on from one frame to the next exactly when nothing in the frame failed; a signal to stop found while polling makes that frame the last one and its error the one returned (when nothing failed before it), whatever the client does; once ended, a run stays ended.", "quantifier": "all clients, all sequences of frames with any signals, inputs and failures", "why_tests_cant": "Unbounded runs with arbitrary clients and failures at every point of a frame.", "anchors": ["x/platform/platform.go:Platform.Run", "x/platform/platform.go:Context.Update"]}
{"id": "C80", "title": "The client's time follows the ticks and stands still while paused", "statement": "In a frame while not paused the client sees the tick's time; while paused it sees the time it saw last. If ticks do not go back, the client's time never goes back and is never ahead of the tick.", "quantifier": "all clients, all sequences of frames with pausing and resuming in any order", "why_tests_cant": "A history property of unbounded runs in which the client decides about pausing.", "anchors": ["x/platform/platform.go:Context.runClient", "x/platform/platform.go:Context.Update"]}
{"id": "C81", "title": "Input reaches the client once", "statement": "The input events shown to the client over all frames of a run are exactly the events decoded from all input read, in order, each once, less the keys the platform keeps for itself.", "quantifier": "all clients, all sequences of frames, all inputs however divided", "why_tests_cant": "Exactly-once delivery is a property of whole histories, across frames and reads.", "anchors": ["x/platform/platform.go:Platform.Run", "x/platform/platform.go:Context.Update", "x/platform/event.go:Events.DecodeInput"]}
{"id": "C82", "title": "Frame timing statistics describe the round", "statement": "With every n-th frame, and no other, a timing round is complete; then Elapsed is the time from the first frame to the last (from the last frame of the round before, when there is one), Min and Max are the least and the greatest time between frames, and Q1, Q2 and Q3 are the quartiles of the times between frames.", "quantifier": "all round lengths, all frame times that move on, any number of rounds", "why_tests_cant": "Order statistics over unbounded data, at all sizes; rounding of the quartile positions depends on the size.", "anchors": ["x/platform/diag.go:TimingData.update"]}
{"id": "C83", "title": "Frames can be timed at any frame rate", "statement": "For every frame rate the tick is the rate's period, and any number of frames can be timed without a panic, a round being complete every quarter second's number of frames.", "quantifier": "all frame rates, any number of frames", "why_tests_cant": "Small rates are the corner; absence of panics over unbounded runs.", "anchors": ["x/platform/options.go:FrameRate", "x/platform/diag.go:TimingData.update"]}
{"id": "C84", "title": "Stall statistics describe the stalls", "statement": "The statistics of a round of output stalls are their number, the sum, the least and the greatest of them; all zero when there are none.", "quantifier": "all lists of stalls", "why_tests_cant": "Unbounded lists of durations.", "anchors": ["x/platform/diag.go:StallsData.update"]}
{"id": "C85", "title": "Resource use is reported over the windows asked for", "statement": "Every difference in resource use reported is between the latest sample and a kept earlier one; for every window with an older sample kept, it is the longest difference within the window, and no difference exceeds its window.", "quantifier": "all ring sizes, all sequences of samples of any number, all windows", "why_tests_cant": "A ring buffer after arbitrarily many updates, with windows closed by the walk back in an order that depends on the spacing of the samples.", "anchors": ["x/platform/diag.go:rusageData.update", "x/platform/diag.go:rusageData.computeDeltas"]}
{"id": "C86", "title": "A recorded session replays as it was", "statement": "When a session is recorded (the platform state, the screen size, and every read with its time), the file read back gives the same state, and the replay then runs the client once for every recorded read, in order, at its time, with its bytes and events and with the size of the screen at that time; then the replay is done.", "quantifier": "all states written in any chunks, all sizes below 2^32, all sessions of any number of reads, all further updates of the replay", "why_tests_cant": "Composition of four codecs (sized sections, size messages, time marks, input) over sessions of unbounded length.", "anchors": ["x/platform/replay.go:Platform.setRecording", "x/platform/replay.go:readReplay", "x/platform/replay.go:replay.update", "input.go:Input.recordFrame", "input.go:ReadInputReplay"]}
{"id": "C87", "title": "Recordings are begun and ended cleanly", "statement": "Whatever is toggled and typed and whichever system calls fail: input is recorded to a file exactly while the platform says it is recording to it; each file opened is used only while open and closed once, at most one is open between calls, and one that could not be begun is removed; an ended recording becomes the replay if it can be read, and failures are returned.", "quantifier": "all histories of toggles and input, all outcomes of system calls", "why_tests_cant": "Needs every combination of failing system calls in histories of unbounded length.", "anchors": ["x/platform/replay.go:Platform.setRecording", "x/platform/replay.go:Platform.loadReplay", "x/platform/replay.go:Platform.toggleRecRep"]}
{"id": "C88", "title": "Profiling runs between entering and leaving, into its file", "statement": "A CPU profile or trace runs, after any calls and failures, exactly while its context says so, into the context's file, which is the only one open; entering starts it on the emptied file and leaving stops it, so that the file holds exactly what was profiled; a profile written on leaving is all that is in its file.", "quantifier": "all histories of enter, exit, start, stop and create, all outcomes of system calls, all profile contents", "why_tests_cant": "Failing system calls at every point of histories of unbounded length.", "anchors": ["x/platform/config.go:cpuProfileContext", "x/platform/config.go:traceProfileContext", "x/platform/config.go:pprofProfileContext", "x/platform/config.go:Config.Enter", "x/platform/config.go:Config.Exit"]}
{"id": "C89", "title": "Waiting for the next frame ends with a tick or with the ticker", "statement": "At most one ticker is going, with the duration asked for, and none after Exit; Wait returns a tick of the ticker that was active when it was called, or the zero time exactly when that one has been ended or was not active.", "quantifier": "all durations, all histories of Enter, Exit and ticks before and during the wait", "why_tests_cant": "Concurrent Exit and Enter at any point of a blocking call, over unbounded histories.", "anchors": ["x/platform/tick.go:Ticker.Enter", "x/platform/tick.go:Ticker.Exit", "x/platform/tick.go:Ticker.Wait"]}
{"id": "C90", "title": "Changing the log file loses no line", "statement": "Lines logged while a log file is set are written to that file, by the time logging is stopped or the file is changed; every line is kept in memory; files replaced are closed; without a file the background worker is stopped.", "quantifier": "all histories of log lines, notifications, and changes of the file", "why_tests_cant": "Buffered lines, a background worker and file changes in unbounded histories.", "anchors": ["x/platform/log.go:LogSink.SetFile", "x/platform/log.go:LogSink.Start", "x/platform/log.go:LogSink.Stop", "x/platform/log.go:LogSink.Write"]}
{"id": "C91", "title": "The overlay's header line is clickable where it is drawn", "statement": "Drawing the header line of the overlay never panics; its segments stand in the first row from right to left with one blank column between them, nothing else on the screen changes, and the box in which clicks on a segment are looked for is exactly the place of its characters, so that no two boxes share a cell.", "quantifier": "all segment texts, all screen sizes and contents", "why_tests_cant": "All texts and all screen widths, including those without enough room.", "anchors": ["x/platform/hud.go:HUD.rightSegment", "x/platform/hud.go:HUD.Update"]}
{"id": "C92", "title": "The overlay's rows, buttons and switches are drawn where they are clicked", "statement": "A heading, a row of a name and a value, a button and a switch each occupy exactly their box at the right end of the cursor's row, with the name, a blank and the value or the button (its label centred and cut to fit), leave the rest of the screen alone and move to the next row; a press in a switch's box turns its flag over and is used up.", "quantifier": "all names, values, labels and widths, all screen sizes and contents, all events", "why_tests_cant": "All texts against all widths, with clamping at the edges of the screen.", "anchors": ["x/platform/hud.go:HUD.detailHeader", "x/platform/hud.go:HUD.detailRow", "x/platform/hud.go:HUD.drawButton", "x/platform/hud.go:HUD.drawToggleRow", "x/platform/hud.go:HUD.calcKVBox"]}
{"id": "C93", "title": "Choosing a file in the overlay", "statement": "A left press in the box of a file control makes it the active one, and the only one; what is typed from then on, in any number of frames, up to Enter names the file created for that control (its default name if nothing was typed); Escape or a press elsewhere creates none; without presses the active control stays active.", "quantifier": "all controls and boxes, all events in any number of frames, all screens", "why_tests_cant": "Interaction over unboundedly many frames, each with any events and any set of controls drawn.", "anchors": ["x/platform/hud.go:HUD.underActivation", "x/platform/hud.go:HUD.nextID", "x/platform/hud.go:HUD.drawFileEditRow", "x/platform/hud.go:HUD.underFileEdit"]}
{"id": "C94", "title": "The list of profiles adds the profile that is clicked", "statement": "The open list shows exactly the profiles not yet added, each on its own row, and changes nothing else on the screen; a left press on a row adds the profile shown there, once, and any left press closes the list; it never panics.", "quantifier": "all lists of profiles and their names, all screen sizes and contents, all events", "why_tests_cant": "All texts against all widths and heights, with every place of every press.", "anchors": ["x/platform/hud.go:HUD.drawPProfSelector"]}
{"id": "C95", "title": "A bitmap written to a terminal is shown there", "statement": "WriteBitmap, on a terminal whose cursor is in the first column with enough room, shows every 2 by 4 block of bits as its braille rune in the style given for it, rows of blocks one under the other starting in the cursor's row, and leaves every other cell as it was.", "quantifier": "all bitmaps including parts of others, all styles, all terminal contents and sizes", "why_tests_cant": "All bit patterns with all styles and terminal states.", "anchors": ["render.go:WriteBitmap", "render.go:writeBitmap"]}
{"id": "C96", "title": "Redraws, sizes and the platform's keys", "statement": "The client is told to redraw exactly when Ctrl-L was pressed, there is no size yet, or the size is not the one the frame before was left with, and is then shown the terminal's present size; an odd number of Ctrl-K shows or hides the overlay, an odd number of Ctrl-R switches recording; the frame ends with the first error of the polls, the switch, the client, the output and the workers, in that order.", "quantifier": "all clients, all frames of all runs, all input and sizes", "why_tests_cant": "Every combination of keys, sizes and errors in any number of frames with any client.", "anchors": ["x/platform/platform.go:Platform.Run", "x/platform/platform.go:Context.Update", "x/platform/platform.go:Context.runClient", "x/platform/hud.go:HUD.Update"]}
{"id": "C97", "title": "Workers and profiles are started and stopped together", "statement": "Background workers are started in order, notified only when all have been started, and at the end of the run all stopped, once each, in reverse, whatever fails; an odd number of presses on the control of all profiles starts every one if none was active and stops every one otherwise, each being tried whatever the others return; the error is the first of them.", "quantifier": "all workers and results of their methods, runs of any number of frames; all profiles and outcomes of system calls", "why_tests_cant": "Any number of workers and profiles, each failing or not at any time.", "anchors": ["x/platform/bg.go:BackgroundWorkers.Enter", "x/platform/bg.go:BackgroundWorkers.Exit", "x/platform/bg.go:BackgroundWorkers.Notify", "x/platform/hud.go:profilers.start", "x/platform/hud.go:profilers.stop", "x/platform/hud.go:profilers.isActive", "term.go:Term.RunWith"]}
{"id": "C98", "title": "The log viewer shows its lines where they can be read and clicked", "statement": "The open log viewer draws a title saying which lines are shown, and below it each of these lines in its own row down to the last row; the closed one draws one line in the last row; no other cell changes; an odd number of left presses on the row of the title (of the line, when closed) opens or closes it; it never panics.", "quantifier": "all logs, all states of the viewer, all events, all screen sizes and contents", "why_tests_cant": "All logs against all sizes, with every place of every press.", "anchors": ["x/platform/hud.go:LogView.Update"]}
{"id": "C99", "title": "The overlay leaves the client alone", "statement": "A frame of the overlay runs the client once with all events but Ctrl-K; when hidden, screen, events and error are the client's; when shown without details, the header and the log are drawn over the client's output and nothing else changes, odd numbers of left presses on the time, the frame rate or the profiling sign open or close their details, and the error is the client's; the client's cursor and style are restored, the overlay has its own style, and presses on it do not reach the client.", "quantifier": "all clients, all events, all states of the overlay, all screens and texts", "why_tests_cant": "All clients with all screens, texts and events.", "anchors": ["x/platform/hud.go:HUD.Update", "x/platform/hud.go:HUD.rightSegment", "x/platform/hud.go:LogView.Update"]}
{"id": "C100", "title": "Grids written as lines read back as the same grid", "statement": "The lines GridLines makes of a grid, or of a part of one, are read back by ParseGridLines as a whole grid of the same size with the same characters and renditions, empty cells holding the fill character; so grids with the same lines have the same cells. Printed on a terminal, the lines show the cells. Any line of characters and SGR sequences is read as the cells it shows, lines with other controls or of different lengths panic. GridRowData gives the rows of the grid, AttrsToCtls shows its attributes.", "quantifier": "all grids and parts of grids, all sizes, characters and renditions; all lines", "why_tests_cant": "All grids of all sizes with all sequences of renditions.", "anchors": ["test/grid.go:ParseGridLines", "test/grid.go:parseGridLine", "test/grid.go:GridLines", "test/grid.go:GridRowData", "test/grid.go:RunesToLines", "test/grid.go:AttrsToCtls", "ansi/sgr.go:SGRAttr.ControlString"]}
{"id": "C101", "title": "Attributes and colours are printed as their names, distinct ones differently", "statement": "SGRAttr.String gives the words for the set renditions in a fixed order with blanks between them, then fg: and bg: with the name of the colour, the empty text when nothing is set. SGRColor.String names the sixteen basic colours, gives the number of any other indexed colour and the decimal components of a 24-bit one. Different colours have different names and different combinations of renditions and colours are printed differently, so a printed attribute determines the attribute.", "quantifier": "all combinations of the seven renditions and all indexed and 24-bit colours, foreground and background", "why_tests_cant": "2^7 renditions with 2^24 + 2^8 colours in each place; injectivity relates any two of them.", "anchors": ["ansi/sgr.go:SGRAttr.String", "ansi/sgr.go:SGRColor.String", "ansi/sgr.go:colorNames"]}
{"id": "C102", "title": "The decode command prints everything it reads, with a note for each escape sequence", "statement": "In batch mode, whatever characters, control sequences, control strings and escapes the input consists of and however it is cut into reads, cmd/decode writes them in order: characters as they are and a note in place of each escape sequence with its name and argument (the words for what it sets for SGR), or nothing for them with -strip, so that only the characters are left; only an unfinished sequence at the end is left over, and the program then exits with success. Interactively it ends when Ctrl-C comes twice in a row (as key or interrupt), a stop signal or an input error comes, and a second Ctrl-L clears, a second Ctrl-Z suspends.", "quantifier": "all sequences of items, all ways to cut their bytes into reads; all sequences of keys and signals", "why_tests_cant": "All streams and all of their cuts; all interleavings of keys and signals.", "anchors": ["cmd/decode/main.go:processBatch", "cmd/decode/main.go:runBatch", "cmd/decode/main.go:runInteractive", "cmd/decode/main.go:handle", "term.go:MustRun"]}
{"id": "C103", "title": "The interact command runs the command line with its variables filled in", "statement": "Whatever words the user presses, whatever the edits make of the input and however the screen's size changes, the output area of cmd/interact shows the outcome of the command line with each word that begins with a dollar sign replaced by that variable's present value and a backslash that guards a dollar sign removed; it shows a prompt while a value is missing and nothing without room. Every command that was ever run was the command line with non-empty values for all its variables. A value changes only when the edit of its word is completed with some text, to that text; a press chooses a word or gives it up, and one word at most is chosen. Without presses, edits and changes of size nothing is run.", "quantifier": "all command lines, all sequences of updates with all presses, edit results, overlay states and screen sizes", "why_tests_cant": "All command lines with variables in any place, and all sequences of presses, edits and changes of size.", "anchors": ["cmd/interact/main.go:setCmd", "cmd/interact/main.go:haveAllArgVals", "cmd/interact/main.go:runCmd", "cmd/interact/main.go:Update"]}
{"id": "C104", "title": "The timing panel shows the clock's state and its controls do what they say", "statement": "On a screen with room the timing panel of the overlay draws four rows below the cursor: the time of the last frame, the time step, whether the platform is paused with a button that says what pressing it will do, and the state of replay or recording with its button or size. The pause state is switched exactly when the number of left presses on its button is odd, and is shown as it is after the presses; recording is asked to be switched exactly when no replay runs and the number of left presses on its button is odd. Exactly the presses on the buttons are taken away from the client, and every other cell of the screen is left as it was.", "quantifier": "all screens with room for the panel, all panel widths from five up, all themes, texts and event lists", "why_tests_cant": "All combinations of presses, texts, widths and clock states, and every cell of every screen.", "anchors": ["x/platform/hud.go:drawTimingDetail", "x/platform/hud.go:drawButton", "x/platform/hud.go:calcKVBox"]}
{"id": "C105", "title": "The demo shows the place of every cell as its colour, and ends or suspends on its keys", "statement": "In every frame of cmd/demo each cell of the screen shows its place as its background: column as green and row as blue, modulo 256; every sixteenth row is a ruler of digits that run from the tenths of the clock's seconds on, from ruler to ruler, with that number as red; all other characters are blanks. Ctrl-C ends the demo and takes the input from there on, Ctrl-Z suspends it exactly when there is no Ctrl-C, the error of suspending is returned, escape sequences are logged unless the demo ends, and a frame is drawn in any case.", "quantifier": "all screen sizes, all times, all sequences of frames, all event lists, every cell", "why_tests_cant": "Every cell of every screen size after any number of frames, and all event lists; the code has no tests.", "anchors": ["cmd/demo/main.go:Update", "cmd/demo/main.go:runeSweep", "grid.go:CellOffset", "grid.go:Resize"]}
{"id": "C106", "title": "Suspending stops the process with the terminal left, and returns after it was continued", "statement": "Term.Suspend stops the process once, and only after the terminal's contexts were exited; it returns nil only after the process was stopped and then continued, with the terminal entered again exactly if it was in use before; it returns after every SIGCONT that follows the stop; an error comes only from a call that failed, the process is not stopped if leaving the terminal or sending the signal failed, and no signals are sent to its channel after the return.", "quantifier": "all interleavings of the goroutine, of signals sent from outside, and of os/signal handing signals on; all results of the calls; terminals in use or not", "why_tests_cant": "The interleaving of the process being continued, of os/signal and of the calling goroutine cannot be controlled by a test, and the test process would have to be stopped.", "anchors": ["term.go:Suspend", "term.go:RunWithout"]}
{"id": "C107", "title": "The name of a mouse state says modifiers, button and action, and names tell states apart", "statement": "MouseState.String gives every state a name and never panics; the name of the state decoded from a report is the held modifiers in the order ctrl, shift, meta, each followed by a plus, then the button with what was done with it; states with the same name are the same.", "quantifier": "all 256 states, all reports with all buttons, modifiers, motions, releases and positions", "why_tests_cant": "There are no tests of the names; sampling reports misses collisions, which lie in single codes.", "anchors": ["ansi/mouse.go:String", "ansi/mouse.go:ButtonName", "ansi/mouse.go:ModifierName", "ansi/mouse.go:DecodeXtermExtendedMouse"]}
{"id": "C108", "title": "Updates written to a plain destination arrive whole or are reported", "statement": "Screen.Update, Cursor.ApplyTo and WriteGrid with a destination that can only Write bytes: it gets a beginning of the bytes to be written, the number returned is the number it took, and there is no error exactly if it took all of them without one; then the terminal shows the screen and the state returned describes it. After an error the state returned does not claim what was not written.", "quantifier": "all screens, prior states, terminals that agree with them, and all answers of the destination", "why_tests_cant": "Failures in the middle of a write on every possible byte, and what later updates do from the state returned, are not tested at all.", "anchors": ["state.go:Update", "state.go:ApplyTo", "render.go:WriteGrid", "render.go:withAnsiCursorWriter", "render.go:withAnsiScreenWriter", "buffer.go:WriteTo"]}
{"id": "C109", "title": "The lolwut command draws exactly the sides of its squares, and its interactive mode keeps them fitted to the screen", "statement": "Every dot of the picture of cmd/lolwut is set exactly if it lies on a side of one of its squares, each side being a line as in C77, wherever the squares are moved and turned; without -i the squares are as large as fit beside the padding and the canvas is as wide as asked for and as high as the squares. With -i every frame, for all input, shows the picture of as many squares as cover the screen in both directions; turning the wheel on the screen changes the size of the squares by the turns, never below 1; Ctrl-C and Ctrl-Z work as in C105; and no sequence of frames panics.", "quantifier": "all numbers of squares, sizes and screens, all shifts and corners of the squares, all event lists, all sequences of frames, every dot", "why_tests_cant": "Every dot of every picture for arbitrary turned squares, and any sequence of sizes and input; the code has no tests.", "anchors": ["cmd/lolwut/interact.go:Update", "cmd/lolwut/main.go:draw", "cmd/lolwut/main.go:drawSquare", "cmd/lolwut/main.go:setup"]}
{"id": "C110", "title": "Grids written with styles show what the styles make of every cell", "statement": "After WriteGrid with any list of styles, however nested, onto a terminal of the size of the grid, the terminal shows at every point what the styles, applied in order, make of the grid's cell there: for a full redraw with nothing prior to them, and for an update from a prior screen of the same size with what the styles make of nothing as what is prior. The cursor returned agrees with the terminal, and any destination that reports no error got all of these bytes.", "quantifier": "all grids, all lists of styles as arbitrary functions, all prior screens and terminals in agreement, every cell", "why_tests_cant": "Styles are arbitrary functions, composed in arbitrary numbers; tests try a few.", "anchors": ["render.go:WriteGrid", "render.go:writeGridFull", "render.go:writeGridDiff", "style.go:Styles"]}
{"id": "C111", "title": "A new platform opens the files asked for and has the frame rate asked for", "statement": "New uses, for each of telemetry, log, CPU profile, trace and memory profile, a newly created file of the first name given for it, the flags of the command line coming first if they count (they were not parsed before and no Config is among the options) and then the options in order; it opens no other file and closes none but the old log file, which is replaced. The first file in this order that cannot be created makes for the error that is returned. The tick, the estimate's and the timing's sizes follow the last frame rate given, or 60. It panics exactly if some frame rate is not positive.", "quantifier": "all lists of options, all flags, all sets of names that can be created, all earlier files", "why_tests_cant": "All combinations of five names from any number of options and any failures; setting up opens real files and has no tests.", "anchors": ["x/platform/platform.go:New", "x/platform/config.go:setup", "x/platform/options.go:FrameRate", "x/platform/options.go:hasConfig"]}
{"id": "C112", "title": "MustRun ends the process with the error's status and reports the error", "statement": "MustRun does nothing without an error. With one it ends the process, with the error's exit code if it has one that is not zero and with 1 otherwise; a signal's status tells which signal it was. The error is logged, and with a log file it is in that file after the run, behind everything that was logged before.", "quantifier": "all errors and codes, all signals, all states of the log", "why_tests_cant": "It ends the process, so tests cannot call it; where the last lines of the log end up depends on the state of the worker that writes it.", "anchors": ["term.go:MustRun", "signal.go:ExitCode", "x/platform/log.go:Write"]}
{"id": "C113", "title": "A replay marks where the recorded mouse is", "statement": "While a recording is replayed, the screen is as the client draws it, except for a mark in the cell of the last mouse event of the frames played so far, if that cell is on the screen. The mark has the colour of the event's button in that frame and the next fourteen and the colour for no button afterwards; colours differ between buttons. Drawing it never panics, whatever was recorded and however large the screen is.", "quantifier": "all sequences of recorded frames, every mouse report in them, all screens, every cell", "why_tests_cant": "Any recorded bytes at any screen size, and a state that decays over frames; the code has no tests.", "anchors": ["x/platform/replay.go:update", "x/platform/replay.go:drawOverlay"]}
{"id": "C114", "title": "While a replay goes on the platform still obeys and the client sees what it saw", "statement": "While a recording is replayed, every frame runs the client with the next recorded frame: its time, the size of the screen then, and the events the client saw when they were typed; when all have been shown the run says the replay is done. Signals to stop and errors of reading input end the run as they do without a replay. Typing Ctrl-C ends the replay, and the platform goes on as without one: with what was typed before, the present time and the size of the terminal.", "quantifier": "all clients, all recordings, all sequences of frames with any polls, typed input, terminal sizes and errors", "why_tests_cant": "Needs a replay, signals and typed keys at the same time, over any number of frames; the frame loop has no tests.", "anchors": ["x/platform/platform.go:Run", "x/platform/platform.go:Update", "x/platform/replay.go:update", "x/platform/replay.go:runClient"]}
{"id": "C115", "title": "A replay starts from the state the recording began with, every time", "statement": "When a run starts with a replay, the platform's state and the client's are those saved when the recording began, whatever they have been since, and the recorded input is replayed from its first frame; the run can be started again after the replay is done, with the same result. If the saved state cannot be read, the platform's state is left as it is.", "quantifier": "all saved states and present states of the same types, all recordings, any number of frames and runs", "why_tests_cant": "Depends on which fields happened to be zero when the recording began; tests would need to record, change, and replay.", "anchors": ["x/platform/state.go:readState", "x/platform/state.go:writeState", "x/platform/platform.go:Run"]}
{"id": "C116", "title": "A replay says how long it takes and its frames say what they hold", "statement": "The duration of a replay is the time from its first recorded read to its last. The text of a frame tells its time, error, message and the bytes that were read, or that there are none.", "quantifier": "all recorded sessions of plain input, all times after the year 292, all frames", "why_tests_cant": "Holds or fails for every recorded session alike; needs times of whole sessions read back.", "anchors": ["input.go:InputReplay.Duration", "input.go:InputFrame.String"]}
{"id": "C117", "title": "Opening the terminal keeps terminals, replaces other files, and leaks nothing", "statement": "OpenTerm uses each standard file that is a terminal, and opens the process's terminal, for reading or for writing, in place of one that is not. If that fails it returns an error, has closed everything it opened, once, and has not closed the given files. The files it returns are standard terminal files.", "quantifier": "all given files, any of them terminals or not, any open calls failing", "why_tests_cant": "The failing open calls cannot be brought about in tests; which file a deferred function closes depends on a variable changed after.", "anchors": ["term.go:OpenTerm", "term.go:openTermFiles", "term.go:IsStandardTermFile"]}
{"id": "C118", "title": "The palette command shows every colour as it is and in columns", "statement": "The palette command lists the 256 standard colours once each, in order and by number, and the themes between the sixteenth and the rest if asked for. Whatever the terminal showed before, each line has a sample with the colour as its foreground and nothing else, one with it as its background and nothing else, and quotes exactly the controls that were sent for these, all other text of it being plain. Colours are shown as the model asked for last has them: as they are, as the nearest of the first 8, 16 or 256, in 24 bits, or by number if they have one. The columns of all lines are at the same places. Asked for a model that there is not it fails, listing the names.", "quantifier": "all sequences of models asked for, with and without themes, all renditions of the terminal before", "why_tests_cant": "The command has no tests; what is shown depends on every control of 384 lines in order, for six models and any rendition before.", "anchors": ["cmd/palette/main.go:main", "cmd/palette/main.go:Set", "ansi/colors.go:Convert", "ansi/sgr.go:ControlString"]}
{"id": "C119", "title": "Frame times are logged when asked for, each round once", "statement": "When timing is to be logged, by the configuration, the overlay or the client, each round of frames is logged once, at its end, with the times between its frames, sorted; otherwise nothing is logged of it. The overlay's panel switched off and on again starts afresh. The rate shown is the measured one exactly while timing is on or logged. Whatever is done to the switches, no frame panics.", "quantifier": "all sequences of frames, times, presses of the overlay's switches, loaded states, stalls and delays of the worker", "why_tests_cant": "Two fields of the same name at different depths of embedding: which of them a line means is not visible in it, and every test that sets and reads the same one passes.", "anchors": ["x/platform/diag.go:Telemetry.update", "x/platform/diag.go:SetTimingEnabled", "x/platform/diag.go:logData", "x/platform/hud.go:drawTelemetry", "x/platform/config.go:setup", "x/platform/diag.go:FPS"]}
{"id": "C120", "title": "Stalls are counted and logged, each once", "statement": "While output stalls are tracked, the overlay shows in each frame the number, sum, least and greatest of those since the last round of frames ended, and none is missed, wherever in a round tracking began; the share of time is theirs in that time. When they are to be logged, each stall is logged exactly once.", "quantifier": "all sequences of frames, stalls, presses of the overlay's switches and loaded states", "why_tests_cant": "The stalls logged are a slice of a buffer that the next flush writes to; whether this is seen depends on which frame of a round stalls.", "anchors": ["x/platform/diag.go:SetStallTracking", "x/platform/diag.go:Telemetry.update", "x/platform/diag.go:StallsData.update", "output.go:Stalls", "output.go:TrackStalls", "output.go:recordStall"]}
{"id": "C121", "title": "The telemetry log is lines of JSON, of resource usage at most one a second", "statement": "Each entry of the telemetry log is one line of JSON, an object with the time, the name and the data, and lines of resource usage are at least a second apart.", "quantifier": "all entries; all sequences of frames, whatever is done to the switches and whatever the times", "why_tests_cant": "The text is put together by hand, with a comma before all but the first item; the distance depends on all frames before.", "anchors": ["x/platform/diag.go:logData", "x/platform/diag.go:appendDurationsTo", "x/platform/diag.go:computeDeltas"]}
{"id": "C122", "title": "The frame rate panel shows the telemetry and its headings switch it", "statement": "Opened, the frame rate panel shows a heading for frame control, one for frame timing and one for output stalls, one below the other, and under the second and the third, if they are switched on, a table of the measured numbers as they are after the presses of this frame. An odd number of left presses on a heading switches what it names, these presses and no others are taken, and no other cell changes.", "quantifier": "all screens, events, telemetry states and texts of numbers that fit", "why_tests_cant": "The tables move the third heading, and a press on the second moves it within the frame; only a proof covers all combinations of presses and switches.", "anchors": ["x/platform/hud.go:drawFPSDetail", "x/platform/hud.go:drawFrameTiming", "x/platform/hud.go:drawStallsDetail", "x/platform/diag.go:SetTimingEnabled", "x/platform/diag.go:SetStallTracking"]}
{"id": "C123", "title": "The telemetry and profiling panels show and switch what they name", "statement": "The telemetry panel shows the file of the log and whether timing and stalls are logged, and switches each of the latter by an odd number of left presses on its button. The profiling panel shows each profiler's name, its file and a sign that turns by quarters of a second while it is active; a profiler is started or stopped exactly by an odd number of left presses on its sign, and the panel is closed by an odd number on its heading, which then takes no other press. These presses and no others are taken, and no other cell changes.", "quantifier": "all screens with room, events, telemetry states, lists of profilers, names and times", "why_tests_cant": "The rows of the panel depend on the list of profilers, and each press is seen by all rows before it; a test sees one list and one press.", "anchors": ["x/platform/hud.go:drawTelemetry", "x/platform/hud.go:drawFileEditRow", "x/platform/hud.go:drawToggleRow", "x/platform/hud.go:drawProfDetail", "x/platform/hud.go:hudProfileControl.update", "x/platform/hud.go:hudProfileControl.drawSpinner"]}
{"id": "C124", "title": "Open panels stand one below the other and do not take each other's presses", "statement": "Below the header the overlay shows the open panels one below the other: timing, then telemetry if timing or frame rate is open, then profiling, then frame rate. Each panel does with the presses in its own places what it does alone, wherever the panels above have moved it in this frame; the presses taken are exactly those in the places of the open panels; and every cell of the screen is determined: each line is in its own row, and no cell outside the lines changes.", "quantifier": "all screens with room, combinations of open panels, events, telemetry states, profilers and texts that fit", "why_tests_cant": "There are eight combinations of panels with arbitrarily many rows, and a press can close or grow a panel and so move those below it in the same frame.", "anchors": ["x/platform/hud.go:HUD.Update", "x/platform/hud.go:drawTimingDetail", "x/platform/hud.go:drawTelemetry", "x/platform/hud.go:drawProfDetail", "x/platform/hud.go:drawFPSDetail"]}
{"id": "C125", "title": "The builtin terminfo strings do what they are called", "statement": "FuncMap and KeyMap have for each name the string of the terminfo capability of that name. Of each builtin entry, EnterCA and ExitCA bracket full-screen use so that screen, cursor and renditions come back whatever is drawn in between; ClearScreen erases all of the screen shown and takes the cursor to its first cell; SGR0 takes all renditions back; Bold, Underline, Blink and Reverse switch on just that rendition; ShowCursor and HideCursor, EnterKeypad and ExitKeypad, EnterMouse and ExitMouse switch that and change nothing else.", "quantifier": "all builtin entries, terminal states and drawings in between; all compiled entries for the maps", "why_tests_cant": "The tables are only data to the compiler, a wrong string or a swapped index shows only on that terminal, and that a screen comes back depends on everything drawn in between.", "anchors": ["terminfo/builtin_xterm_terminfo.go", "terminfo/builtin_linux_terminfo.go", "terminfo/builtin_screen_terminfo.go", "terminfo/builtin_eterm_terminfo.go", "terminfo/builtin_rxvt_256color_terminfo.go", "terminfo/builtin_rxvt_unicode_terminfo.go", "terminfo/terminfo.go:FuncMap", "terminfo/terminfo.go:KeyMap"]}
{"id": "C126", "title": "Keys of the known terminals are decoded, told apart, and count as what they are", "statement": "Whatever keys and characters are typed on a terminal with a builtin entry are decoded in turn, all of each key's bytes and no more; different sequences of keys and characters give different events; keys do not count as characters typed; and the cursor movement counted is the sum of the arrow keys typed.", "quantifier": "all builtin entries and all sequences of keys and printable characters, mixed", "why_tests_cant": "Unique decodability is about pairs of sequences of any length; tests try single keys.", "anchors": ["terminfo/builtin_xterm_terminfo.go", "ansi/decode.go:DecodeEscape", "input.go:Input.Decode", "x/platform/events.go:CountRune", "x/platform/events.go:TotalCursorMovement"]}
{"id": "C127", "title": "A program that uses the platform leaves the terminal as it found it", "statement": "A program runs on the terminal of a new platform with any further contexts, suspending and resuming as it likes. In the end the terminal shows what it would show if the program had not run: the main screen with what others drew while it was suspended, the cursor where they left it, all modes as they were. Whenever the program draws, the alternate screen is shown and the mouse is reported in extended form; whenever others draw, the terminal is as if only they had drawn on it. A screen that is entered again is drawn in full.", "quantifier": "all programs of runs, nested runs and suspensions, all contexts that do not fail, all drawing by the program and by others, all terminals in the usual state, all ways the terminal splits writes", "why_tests_cant": "The claim is about what a terminal shows after any interleaving of a program's sessions with others' output; tests compare bytes of one enter or exit.", "anchors": ["x/platform/platform.go:New", "mode.go:Mode.Enter", "mode.go:Mode.Exit", "mode.go:Mode.AddMode", "mode.go:Mode.AddModeSeq", "screen.go:TermScreen.Enter", "screen.go:TermScreen.Exit", "screen.go:TermScreen.SizeToTerm", "term.go:Term.RunWith", "term.go:Term.RunWithout"]}
{"id": "C128", "title": "What is asked for on the command line is what is done", "statement": "A command line that spells settings, with one dash or two, with an equals sign, with the value as the next argument or with none for flags that need none, makes these settings in order and leaves the arguments after them; no other command line is taken. So a new platform uses for each file the one named last on the command line, or else the first named by its options, and measures timing exactly if asked to; the palette command lists by the models asked for; the decode command has the modes said last; and lolwut takes its three numbers, at least one each.", "quantifier": "all command lines, all options and all configurations to begin with", "why_tests_cant": "Command lines are unbounded lists of arguments and a later setting overrides an earlier one in any spelling; tests try a few.", "anchors": ["x/platform/config.go:Config.AddFlags", "x/platform/platform.go:New", "cmd/palette/main.go:main", "cmd/decode/main.go:main", "cmd/lolwut/main.go:parseArg"]}
{"id": "C129", "title": "What is typed is what the edit line holds", "statement": "In a program with an active edit line, run by the platform, keys are typed: characters, backspace, arrows and the platform's own keys. However their bytes are cut into pieces and spread over frames, after every frame the line holds the text and the cursor that the same keys give when done to the text one after the other, nothing lost and nothing twice. Enter ends the editing with that text. A terminal that shows the frame has the characters of the text around the cursor in the box of the line and its cursor at its place in the text.", "quantifier": "all sequences of keys, all ways in which their bytes arrive, all numbers of frames, all clients that update an edit line with the events of their frames, all screens and boxes", "why_tests_cant": "It composes reading, decoding, the queue of events, the frame loop, the line editor and drawing; each has unbounded state, and the bytes can be cut in any way.", "anchors": ["x/platform/editline.go:EditLine.Update", "x/platform/platform.go:Platform.Run", "x/platform/event.go:Events.DecodeInput", "input.go:Input.ReadAny", "input.go:Input.Decode"]}
{"id": "C130", "title": "What the interact command shows and what is typed into it", "statement": "A frame of the interact command with its screen: Ctrl-C ends it and Ctrl-Z suspends it. The words of the command stand on one row in their styles, each variable with its value; below is the output of the latest run, with status and error, or what is missing to run it. A press on a variable opens it for editing; what is typed and ended with Enter is then its value, and is put in its place when the command is run next. Whatever the events, the sizes of the screen and the outcomes of running the command are, no frame panics, the output area has the size of the room below the words, and what it shows is up to date.", "quantifier": "all command lines, values, events, screens with room for the words, outcomes of running the command, and sequences of frames", "why_tests_cant": "The words can be of any number and length, the presses and keys of any order, and running the command can print anything, which is interpreted as terminal output.", "anchors": ["cmd/interact/main.go:inspect.Update", "cmd/interact/main.go:inspect.runCmd", "x/platform/editline.go:EditLine.Update", "x/platform/event.go:Events.CountPressesIn"]}
{"id": "C131", "title": "Drawing through the differ shows what drawing directly would", "statement": "A client clears the screen, writes text and control sequences, sets styles and positions and the user cursor, and flushes; it does so frame after frame, while the terminal may be given another size or be written on by something else, after which the screen is resized or invalidated. Whatever the terminal showed at first: after every flush each cell of the terminal has the rune and style it would have had if the calls of that frame had been carried out on a cleared terminal directly, the cursor is seen just if the user's cursor is, and then it stands at the user's position in the user's style. No frame faults.", "quantifier": "all terminals of at least one cell with any contents, style and cursor, all sequences of frames, resizes and redraws, all calls a terminal follows (C78)", "why_tests_cant": "What is sent depends on everything shown before, and frames and calls can be of any number; the two ways of drawing share no code.", "anchors": ["screen.go:ScreenDiffer.WriteTo", "screen.go:ScreenDiffer.Clear", "screen.go:ScreenDiffer.Resize", "screen.go:ScreenDiffer.Invalidate", "screen.go:VirtualScreen.Write", "state.go:Screen.Update"]}
{"id": "C132", "title": "What a program that runs on the platform draws is what the terminal shows", "statement": "A program runs on the platform. In every frame the platform takes over a changed terminal size if it was told of one, resets the screen, and redraws everything if that was asked for; then the client draws, beginning by saying where, and the screen is flushed. Between frames the terminal may be given other sizes, or be written on by something else with a redraw asked for. After every flush the terminal shows what the client's calls would have drawn on a blank page of the terminal's size, and the user's cursor. No frame faults.", "quantifier": "all terminals of at least one cell with any contents, style and cursor, all sequences of frames, changes of size and redraws, all calls a terminal follows (C78) that begin by positioning", "why_tests_cant": "What is written depends on all earlier frames, whose number is unlimited; the style and cursor of a blank page are left over from them.", "anchors": ["x/platform/platform.go:Context.Update", "x/platform/platform.go:Platform.Run", "screen.go:ScreenDiffer.Reset", "screen.go:TermScreen.SizeToTerm", "screen.go:ScreenDiffer.WriteTo"]}
{"id": "C133", "title": "What is typed into an edit line shows on the terminal", "statement": "A program on the platform edits a line in a box. Frame after frame keys are typed: characters, backspace at the end, arrows, and a redraw; the terminal may be given other sizes in which the box fits, or be written on by others and a redraw asked for. After the flush of every frame the terminal shows exactly the text that all keys so far give, or a part of it of at most the box's width around the cursor, and all of it if it fits; every other cell is blank; the cursor is seen at its place in the text. No frame faults, and nothing is assumed about the jumps of the cursor.", "quantifier": "all terminals with any contents, all boxes with two columns to spare, all texts to begin with, all sequences of frames and keys", "why_tests_cant": "The view scrolls with the cursor, only differences are written, and where they are written from depends on the frame before; keys and frames can be of any number.", "anchors": ["x/platform/editline.go:EditLine.Update", "x/platform/platform.go:Context.Update", "screen.go:ScreenDiffer.Reset", "screen.go:ScreenDiffer.WriteTo"]}
{"id": "C134", "title": "What is typed at a terminal is what it shows, from bytes read to bytes written", "statement": "A program whose client edits a line is run by the platform on a terminal that shows anything at first. Keys are typed (characters, backspace at the end, arrows, redraw); their bytes are read in pieces cut anywhere, frame after frame; the terminal signals changes of size, any number of times per frame; others may write on it if a redraw is asked for. In every frame the platform reads and decodes the input, keeps its own keys, resets and sizes the screen, has the line edited and drawn, and writes what differs to the terminal. The program never hangs, panics or stops, and after each frame the bytes written make the terminal show exactly the text that all keys typed until then give, or the part around the cursor of at most the box's width, with every other cell blank and the cursor seen at its place in the text.", "quantifier": "all terminals, texts, boxes that fit with two columns to spare, all sequences of frames, of keys, of cuts of their bytes, and of sizes", "why_tests_cant": "It spans all layers of the library, each with unlimited state: partial sequences in the input, events, the scrolled view, the record of what the terminal shows, and the cursor's position.", "anchors": ["x/platform/platform.go:Platform.Run", "x/platform/platform.go:Context.Update", "x/platform/editline.go:EditLine.Update", "input.go:Input.ReadAny", "x/platform/event.go:Events.DecodeInput", "screen.go:ScreenDiffer.WriteTo"]}
{"id": "C135", "title": "A picture drawn on the platform's screen is on the terminal, dot for dot", "statement": "A program draws a bitmap on its screen in every frame, any bitmap the library makes, of any size. The terminal shows anything at first; before a frame it may have been given another size, or have been written on with a redraw asked for. Every frame is drawn without a fault, and after its flush each dot of the bitmap that the terminal has room for is on or off in the braille character of its cell, two by four dots in a cell from the upper left corner, without any style; every cell beyond the bitmap is blank; the cursor is hidden.", "quantifier": "all bitmaps, terminals and sequences of frames, changes of size and redraws", "why_tests_cant": "Dots, blocks, cells, the record of what is shown and the cursor's jumps between changed cells meet here; a test sees some pictures, and the jumps that fail depend on which cells changed since the last one.", "anchors": ["draw.go:DrawBitmap", "bitmap.go:Bitmap.Rune", "screen.go:ScreenDiffer.WriteTo", "screen.go:ScreenDiffer.Reset", "x/platform/platform.go:Context.Update", "cmd/lolwut/interact.go:schotterDemoUI.Update"]}
{"id": "C136", "title": "A frame that the terminal takes in two pieces is shown whole", "statement": "A frame has been drawn and is flushed, but the terminal takes only some of its bytes, any number, and then would block; the flush makes the file blocking and writes the rest. All bytes of the frame are delivered once and in order, the terminal shows exactly the picture that it shows when it takes all at once, with the cursor there, the number of bytes returned is right, and the file has its flags back. A redraw after it goes on from there. If it would block even then, what was taken is counted, the flags are given back and just the rest is kept for the next flush; if it fails for another reason there is no second attempt, the flags are not touched and the error is returned. The error that tells that the file would block is found however deep errors of the os package hold it.", "quantifier": "all pictures, records, terminals and numbers of bytes taken first; all errors", "why_tests_cant": "A terminal that takes a part of a frame depends on load and on where in the frame it stops; tests write into buffers that take everything.", "anchors": ["output.go:Output.Flush", "output.go:Output.blockingFlush", "screen.go:ScreenDiffer.WriteTo", "input.go:unwrapOSError"]}
{"id": "C137", "title": "What is clicked at the terminal is what the client counts", "statement": "A program has things to press with the mouse, each a button and a box, no two for the same press. The mouse is moved, pressed, released and turned and keys are typed, in any mixture; the terminal sends its reports and characters, which arrive in frames, some with input and some without, the bytes of a frame in pieces cut anywhere. After any number of frames the client has counted for each of its things exactly the presses of that button in that box, each once; releases, drags and presses elsewhere do not count. In a frame what is left to the client is all the rest, in order, but for the keys of the platform.", "quantifier": "all lists of boxes and buttons, all actions, all cuts of their bytes into frames and pieces, all clients that count so", "why_tests_cant": "Reports, their decoding, the queue that outlives frames and the asking for each box in turn meet here; tests press a few places in one frame, and a press counted twice or for a neighbour needs a sequence of frames.", "anchors": ["ansi/mouse.go:DecodeXtermExtendedMouse", "x/platform/event.go:Events.CountPressesIn", "x/platform/event.go:Events.DecodeInput", "x/platform/platform.go:Platform.Run", "input.go:Input.ReadAny"]}
{"id": "C138", "title": "A program that was suspended and continued shows its frames again", "statement": "A program draws frame after frame on a terminal and is suspended in the middle of one. When its screen is exited the terminal is left with a plain rendition and a visible cursor and nothing else changed. Whatever is then done with the terminal by others, including changes of its size, and whether or not everything could be written when exiting: once the mode is set and the screen is entered again, every later frame is on the terminal as if it had been drawn there directly. The frame in which the program was suspended ends with an erased terminal and a hidden cursor, unless the terminal has more cells than before.", "quantifier": "all states of the screen in step with the terminal, all that the frame has drawn, all results of writing, all states of the terminal afterwards, all sequences of later frames", "why_tests_cant": "What others do to the terminal while the program is stopped cannot be enumerated; tests of the screen never exit and enter it.", "anchors": ["screen.go:TermScreen.Exit", "screen.go:TermScreen.Enter", "screen.go:TermScreen.SizeToTerm", "screen.go:ScreenDiffer.WriteTo", "term.go:Term.Suspend", "x/platform/platform.go:Platform.Suspend"]}
{"id": "C139", "title": "A picture written in lines of text, or a part of it, is on the terminal", "statement": "A program writes a picture as lines of text in which a pattern of one or two characters marks the dots, parses and loads it and draws a part of it, from any column and row on and of any size, on the platform's screen. Every frame parses and draws without a panic, and after its flush the terminal has exactly the dots that are written in that part of the lines, two by four in a cell from the top on the left, and is blank elsewhere. Lines that are not equally wide, and patterns of other lengths, panic, and nothing else does.", "quantifier": "all patterns and lines, all parts, all sequences of frames with redraws and changes of size in between, all states of the terminal at the beginning", "why_tests_cant": "The way from characters through bits, sub-bitmaps, braille runes and the differ to cells crosses five coordinate systems; tests check each with one picture.", "anchors": ["bitmap.go:MustParseBitmap", "bitmap.go:ParseBitmap", "bitmap.go:Bitmap.Load", "bitmap.go:Bitmap.SubAt", "bitmap.go:Bitmap.SubSize", "bitmap.go:Bitmap.SubRect", "draw.go:DrawBitmap", "screen.go:ScreenDiffer.WriteTo"]}
{"id": "C140", "title": "Sequences that print alike are written alike", "statement": "Printing a sequence, however it was built, never panics and gives the name of its identifier and, quoted, all its argument bytes and numbers in the order in which they were given. Two sequences that print alike have the same identifier and arguments and are written as the same bytes; control sequences that are written as the same bytes print alike.", "quantifier": "all identifiers, all sequences of builder calls, all ways of quoting that tell what was quoted", "why_tests_cant": "The printed form is a name next to a quoted text without a separator, so whether two of all sequences can collide is not a matter of examples; tests print a few.", "anchors": ["ansi/control.go:Seq.String", "ansi/control.go:Seq.AppendTo", "ansi/control.go:Seq.With", "ansi/control.go:Seq.WithInts", "ansi/escape.go:Escape.String"]}
{"id": "C141", "title": "Telemetry is written to the chosen file, and files that are left are closed", "statement": "Telemetry files are chosen one after the other, by the configuration and in the overlay, while a worker logs texts at any time, also in the middle of choosing a file. A file that can be created is empty and from then on gets what is logged, in order and in full as far as writing succeeds; what is logged before that goes to the file before; a file that cannot be created changes nothing. No other file is touched, and exactly the chosen file is open.", "quantifier": "all sequences of texts and choices, all outcomes of creating and writing, all points at which the worker runs, all contents of the disk before", "why_tests_cant": "Creating the file happens outside the lock, so the order against the worker matters, as do offsets of handles on one file; tests see one order and calls that succeed.", "anchors": ["x/platform/diag.go:telemetryCollector.create", "x/platform/diag.go:telemetryCollector.logData", "x/platform/config.go:Config.setup", "x/platform/hud.go:HUD.underFileEdit"]}
{"id": "C142", "title": "The overlay, over what the client draws, is what the terminal shows", "statement": "A program runs on the platform with the debug overlay. In a frame in which the overlay is visible and its panels are closed, the client is shown the frame's events but Ctrl-K and draws on a blank page; after the flush the terminal shows in every cell the overlay's character if it has one there (the segments of the header in the first row, right to left; the title and lines of the log at the bottom, or its one line if it is closed), in the style the client ended with, and otherwise exactly what the client drew. The user's cursor is where the client set it. Presses on the header and the log and turns of the wheel over it are taken from the events the client leaves. Hidden, the overlay changes nothing.", "quantifier": "all clients that draw by positioning, styling and writing, all texts of the header and logs that fit, all events, all terminals and screens of a size, first frames, redraws and frames of which only the changes are written", "why_tests_cant": "What is seen is the composition of the client's drawing, the overlay's, the difference to the last frame and its bytes on a terminal; tests look at one layer with one screen.", "anchors": ["x/platform/hud.go:HUD.Update", "x/platform/hud.go:HUD.rightSegment", "x/platform/log.go:LogView.Update", "x/platform/platform.go:Context.Update", "screen.go:ScreenDiffer.WriteTo"]}
{"id": "C143", "title": "While the demo runs, the terminal shows the colours of its cells", "statement": "The demo runs on a terminal that shows anything at first; keys are typed, and between frames something else may write on the terminal, after which a redraw is asked for. After the flush of every frame each cell of the terminal has the background that tells its place, column as green and row as blue, modulo 256, in every sixteenth row with the digits of the ruler; the cursor is hidden. On Ctrl-C the demo ends without another flush.", "quantifier": "all sizes of terminals, all contents, clocks, sequences of frames and keys", "why_tests_cant": "Every cell of a terminal of every size after any number of frames, each of which only writes what differs; nothing in the code is tested.", "anchors": ["cmd/demo/main.go:demo.Update", "x/platform/platform.go:Platform.Run", "screen.go:ScreenDiffer.WriteTo"]}
{"id": "C144", "title": "How the interactive commands end, and with which status", "statement": "The commands run until they are ended. When Ctrl-C is typed, among anything else, before or after anything else, a command ends without flushing the frame, with status 0; so it does at the end of the input. A signal to stop ends it with the status of the signal, 256 less its number. When a replay is done it runs again, as often as it takes; any other error ends it with status 1.", "quantifier": "all clients that return their interrupt exactly on Ctrl-C (the demo is one, on all screens; so are the others), all input typed whole, all polls, frames and repeated runs, all signals", "why_tests_cant": "The order of errors in a frame and the loops around it decide; they run for ever and end processes, which tests do not do.", "anchors": ["cmd/demo/main.go:Run", "cmd/interact/main.go:Run", "cmd/lolwut/interact.go:runInteractive", "x/platform/platform.go:Platform.Run", "x/platform/platform.go:MustRun", "term.go:MustRun"]}
{"id": "C145", "title": "While lolwut runs, the terminal shows its squares dot for dot", "statement": "lolwut -i runs on a terminal that shows anything at first; before a frame the terminal may have been given another size, or have been written on with a redraw asked for. In every frame without Ctrl-C and Ctrl-Z nothing fails; the wheel, turned over the screen, changes the side of the squares by one dot a step, down to one; and after the flush the lit dots of the terminal's cells are exactly those on the sides of the squares, as far as the terminal goes, without any style; the cursor is hidden.", "quantifier": "all turns and shifts of the squares, all terminals, events and sequences of frames, changes of size and redraws", "why_tests_cant": "Lines, dots, cells, the record of what is shown and its difference to the next frame meet here; a test sees some frames.", "anchors": ["cmd/lolwut/interact.go:schotterDemoUI.Update", "cmd/lolwut/main.go:schotterDemo.draw", "draw.go:DrawBitmap", "screen.go:ScreenDiffer.WriteTo", "x/platform/platform.go:Context.Update"]}
{"id": "C146", "title": "While interact runs, the terminal shows its words and what came of running them", "statement": "interact runs with the overlay hidden. After a frame in which no word is pressed or edited, the terminal shows the words of the command in its first row, a blank between them, the command green, variables cyan, and after a variable that has a value an equal sign and the value in bright blue; in the rows below, except the last, the output area: after a run the status, an error in red and the output; every other cell is blank and the cursor is hidden. Nothing is run. This is to hold for every command.", "quantifier": "all commands, values, outcomes, events, terminals and what is on them", "why_tests_cant": "Whether a frame reaches the terminal depends on what the last drawing call left in the screen's buffer, thus on the kind of the last word; a test with another command passes.", "anchors": ["cmd/interact/main.go:inspect.Update", "cmd/interact/main.go:inspect.runCmd", "screen.go:ScreenDiffer.WriteTo", "screen.go:VirtualScreen.WriteSGR", "x/platform/platform.go:Context.Update"]}
{"id": "C147", "title": "Points scale, and are told apart by their text", "statement": "A point multiplied by a number has both coordinates multiplied, exactly if the products fit a machine integer; divided by a number other than zero it has both quotients, rounded towards zero, and division by zero panics. Dividing undoes an exact multiplication. A valid point stays valid under multiplication by a positive number, and under division by it if and only if both coordinates are at least that number. The difference of two points leads from one to the other. Points are written (x,y) and rectangles (x,y)-(x,y) in decimal, and points or rectangles written alike are the same.", "quantifier": "all points and rectangles, all factors and divisors, including those whose products do not fit", "why_tests_cant": "Overflow and rounding towards zero show only at extreme and negative coordinates, and that no two points share a text is a statement about all pairs.", "anchors": ["ansi/geom.go:Point.Mul", "ansi/geom.go:Point.Div", "ansi/geom.go:Point.Diff", "ansi/geom.go:Point.Eq", "ansi/geom.go:Rectangle.String"]}
{"id": "C148", "title": "With the overlay visible interact shows every command; hiding it again must show the command alone", "statement": "interact runs with the debug overlay visible and its panels closed. After a frame in which no word is pressed or edited, whatever the command is, the terminal shows the overlay's header and log in no style and, wherever they have no character, the words of the command in the second row, below them the output area except in the last row, and blanks; the cursor is hidden. Nothing is run. While a value is edited it shows the same, with the text being typed over the name of the variable as in C149, whatever the style of the last word, and the cursor in the text. Presses on the header are the overlay's, and do not reach the words. When Ctrl-K hides the overlay again, the next flush is to show the command without it.", "quantifier": "all commands, values, outcomes, events, overlay states with closed panels, logs, terminals and what is on them", "why_tests_cant": "Whether hiding the overlay reaches the terminal depends on the style of the command's last word and on what the drawing calls leave in the buffer.", "anchors": ["cmd/interact/main.go:inspect.Update", "x/platform/hud.go:HUD.Update", "screen.go:ScreenDiffer.WriteTo", "x/platform/platform.go:Context.Update"]}
{"id": "C149", "title": "While a value is edited in interact, the terminal shows the text, the cursor, the words and the output", "statement": "The value of a variable of an interact command is edited, the overlay being hidden. After every frame the terminal shows the text being edited in the place of the variable's name, in no style: all of it if it is no longer than the name, else a part with the cursor in it; the terminal's cursor is visible at its place in the text; the other words and the output area are shown as when nothing is edited. Nothing is run and no value changes. What is shown tells the text: nothing else stands in the place of the name. When the edit begins, and when Enter or Escape ends it, the terminal shows that.", "quantifier": "all commands with a variable, values, texts, cursors, keys, presses, outcomes, terminals and what is on them", "why_tests_cant": "The text is drawn over cells and a buffer left by the words before it, and the frames that are not shown differ from those that are only by what the last call left in the buffer.", "anchors": ["cmd/interact/main.go:inspect.Update", "x/platform/editline.go:EditLine.Update", "screen.go:ScreenDiffer.WriteTo", "screen.go:VirtualScreen.Write"]}
{"id": "C150", "title": "Cursors, screens, events and the overlay's header print what they hold", "statement": "A cursor prints as its place, the words of its style and whether it is visible; two cursors whose attributes are styles print alike just if these three agree. A screen adds the bounds of its grid, and two screens print alike just if these agree as well. A mouse event prints as what was done and where, an escape or control sequence as its name and argument, and in either kind two events print alike just if they are the same. In the row of the overlay's header the last mouse event, the number of bytes flushed (padded with blanks to five characters) and the size of the output can be read back, whatever is to the right of them, and consist of characters that can be drawn.", "quantifier": "all cursors, screens, mouse states, points, sequences, arguments, counts and sizes", "why_tests_cant": "Texts put together from parts are ambiguous if one part can run into the next; that no two values collide is a statement about all pairs.", "anchors": ["state.go:Cursor.String", "state.go:Screen.String", "x/platform/event.go:Escape.String", "x/platform/event.go:Mouse.String", "x/platform/hud.go:HUD.Update"]}
{"id": "C151", "title": "The overlay's clock and profiling sign tell the time and the profiling, and the header does not move with them", "statement": "The clock in the overlay's header has two digits each of hours, minutes and seconds and six of microseconds, which together are the time of the day with the rest cut off; two clocks of a day read the same just if the times agree to the microsecond, and they stand in the order of the dictionary just as the times do. The profiling segment is always one character, which tells whether a profiler is active and, if so, the quarter of the second; it never fails. Whatever the time and the profiling, all segments of the header are at the same places, where they can be pressed, and outside the clock and the sign the same characters are shown. All texts of the header can be drawn and none is empty, and the columns it takes are 22 and the lengths of the frame rate, the size, the count of bytes and the mouse event.", "quantifier": "all times of the day, all nanoseconds within the second, all states of the profilers and all other texts of the header", "why_tests_cant": "A missing zero or a rounded second shows only at particular times; that the places of the header never move is a statement about all pairs of times.", "anchors": ["x/platform/hud.go:HUD.Update", "x/platform/hud.go:hudTimeFmt", "x/platform/hud.go:profileSpinner"]}
{"id": "C152", "title": "The overlay only takes events, and without a press it changes nothing", "statement": "Whatever panels are open, whatever control is active and whatever is being typed in them, a frame of the overlay that does not panic leaves the events the client left in their order, none added and none left out, each either as it was or marked as taken; of those of the mouse only presses of the left button and turns of the wheel are taken, and by the panels only the former. If no control is active and there is no press of the left button among them, the panels take nothing, neither keys nor turns of the wheel; no panel opens or closes, nothing is paused, switched, started, stopped, added, created or recorded, no control becomes active, and the overlay's error is the client's; of the whole overlay only the log takes anything, namely turns of the wheel in a box from the first column that is no higher than the log and two rows. Over any number of such frames no control becomes active, no panel opens or closes, and the overlay is shown or hidden by nothing but Ctrl-K.", "quantifier": "all states of the overlay and its panels, all event queues, all screens, all clients, all logs", "why_tests_cant": "That a key is never lost under the overlay, or an event invented by it, depends on every control of every panel in every state; tests press a few buttons in a few states.", "anchors": ["x/platform/hud.go:HUD.Update", "x/platform/hud.go:drawTimingDetail", "x/platform/hud.go:drawProfDetail", "x/platform/hud.go:drawTelemetry", "x/platform/hud.go:drawFPSDetail", "x/platform/hud.go:LogView.Update"]}
{"id": "C153", "title": "In any state the overlay's panels only add files and profiles, and only where they can be", "statement": "Whatever panels are open, whatever control is active and whatever is typed or pressed, a frame of the panels that does not panic asks for files only in addition to those asked for before, never without a name, and only for the log of telemetry while its panel is open or for a profiler that has a file of its own while theirs is; profiles are only added after those there are, while their panel is open, each one that is available and was not there; a profiler is told to start only if it does not run and to stop only if it does; and a control that becomes active is one that is drawn in that frame.", "quantifier": "all states of the panels, all event queues, all screens, all lists of profilers and profiles", "why_tests_cant": "A file created without a name or for the wrong control needs a rare order of presses and keys in one frame, in a state with another control active; the statement is about all of them.", "anchors": ["x/platform/hud.go:underFileEdit", "x/platform/hud.go:underActivation", "x/platform/hud.go:drawPProfSelector", "x/platform/hud.go:drawSpinner"]}
