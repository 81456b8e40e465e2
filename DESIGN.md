# Formal model of anansi

The model is written in Lean 4 (core plus single Mathlib modules) under `lean/Verif`.
It covers the Go sources in `/repo` function by function; every definition
cites the file and lines it models and says where it simplifies.

## Layout

* `Verif/Model/*`: the model of the code, nothing else.
* `Verif/Spec/*` (and `Spec` namespaces in `Verif/Props/*`): small independent
  specifications: a terminal, a text editor, half-open rectangles, and so on.
* `Verif/Lemmas/*`: helper lemmas.
* `Verif/Props/*`: the property theorems, each with an `example` showing a
  concrete case that meets its hypotheses.
* `seeded/LOG.jsonl`: wrong programs the theorems were tried against.

## Trusted base

* Lean's kernel. No own axioms, no `sorry`, no `native_decide`, no `bv_decide`.
  Theorems depend at most on `propext`, `Classical.choice`, `Quot.sound`
  (`decide +kernel` only has the kernel evaluate; it adds no axiom).
* The transcription from Go to Lean by hand: the model is not extracted from the code.
  Each definition cites its lines so that it can be compared with them.
* Go library functions modelled by their documentation and source: `unicode/utf8`
  (decoding and encoding tables), `strconv.AppendInt`, `bytes.Buffer`, `image.Point` and
  `image.Rectangle`, `copy`/`append`, `encoding/binary`, `sort.Sort`-like ordering,
  channels (buffered and not), `sync.Mutex`, `select`.
* The specifications that judge the model: the terminal (`Spec/Terminal.lean`: VT100
  style with deferred wrap, ECMA-48 SGR, xterm colour parameters), Unicode's braille
  numbering, the xterm 256 colour table, the compiled terminfo format (`term(5)`).

Left abstract as parameters, so that theorems hold for every choice of them:

* `unicode.IsGraphic` (`gr : Nat → Bool`) and the `%q` form of a rune (`quote`);
* the growth of slices when `append` reallocates (`grow`), where aliasing matters;
* what system calls do (`read`, `write`, `fcntl`, `ioctl`, `open`): outcomes are taken
  from arbitrary lists or functions; short writes, errors and end of file included;
* the formatting and parsing of times and durations; clocks give arbitrary values;
* style functions, colour models, clients and contexts are arbitrary functions.

Assumptions about the system, where they matter: `F_SETFL` sets only the flags Linux
lets it set; `os.File.Fd` puts a polled file into blocking mode; each step of a
concurrent model (a channel operation, a critical section under a mutex, a system call)
is atomic, and interleavings are arbitrary otherwise.

## Representation

* byte: `UInt8`; byte slice: `List UInt8`. Aliasing of slices is modelled where a
  property needs it (grids, bitmaps, contexts, colour models, sequence builder), with a
  heap of backing arrays; elsewhere in-place writing returns a new list.
* rune: `Nat` (Go `int32`; negative runes are not modelled).
* `int`: `Int` or `Nat`, unbounded; wrap-around is modelled in `DecodeNumber` and where
  fixed-width arithmetic matters (`BitVec`: attributes, termios flags, file flags).
* mutation: functions return the new value; loops are structural recursion, or recursion
  on fuel with a theorem that some fuel always suffices.
* panics: `Option`/`Except` results, `none` meaning panic (or divergence where stated).
* goroutines: labelled transition systems with atomic steps.

## Method

Every property in `properties.jsonl` has a theorem or several under `Verif/Props`.
Where the code has the property only under a condition, the theorem is suffixed
`_partial` and its hypotheses state the condition; where the code violates the property,
the negation is proved from a concrete witness, next to the `_partial` theorem. Bounded
evaluation is used for witnesses only (`example`s and negations), never for the
universally quantified theorems, apart from finite types quantified in full (a byte, a
colour index, a flag).

## What is modelled

* `Model/App.lean`: A program on the platform whose client edits a line: `x/platform/platform.go:175-296` with `x/platform/editline.go:51-120` as the client, the screen of `screen.go` and the frame loop of `Model/Frame.lean`. Not modelled: the head-up display when it is shown, replays, and errors and short writes of the terminal.
  Cites: editline.go:51-120, platform.go:191-229, platform.go:204-205, platform.go:217-220, platform.go:253-281, screen.go:212-221, x/platform/editline.go:51-120, x/platform/platform.go:175-296.
* `Model/Attr.lean`: `attr.go` and `attr_linux.go`: terminal attributes.
  Cites: attr.go:115-134, attr.go:138-150, attr.go:15-23, attr.go:55-68, attr.go:72-89, attr.go:91-111, attr_linux.go:31-33.
* `Model/Basic.lean`: Shared conventions of the model. * Go `byte` : `UInt8` * Go `[]byte`: `List UInt8` (`Bytes`) * Go `rune` : `Nat` (negative runes are not modelled) * Go `int` : `Int` (unbounded unless a definition says otherwise), `Nat` for lengths and indices that the code keeps non-negative.
* `Model/Bitmap.lean`: `bitmap.go`: bitmaps and their rendering as braille runes; `draw.go:80-98`. Bitmap points are `image.Point`s (zero based).
  Cites: bitmap.go:10-14, bitmap.go:102-106, bitmap.go:109-112, bitmap.go:115-119, bitmap.go:121-126, bitmap.go:130-195, bitmap.go:150-155, bitmap.go:17-25, bitmap.go:213-228, bitmap.go:28-32, bitmap.go:39-89, bitmap.go:56-70, bitmap.go:74-86, draw.go:80-98, draw.go:82-97, draw.go:84-95, draw.go:85-92.
* `Model/Builtin.lean`: Package `terminfo`: the builtin entries and the maps of strings by name. The unused strings at index 0 of `Keys` and `Funcs` are left out, as in `Model/Terminfo`.
  Cites: builtin_eterm_terminfo.go:3-46, builtin_linux_terminfo.go:3-46, builtin_rxvt_256color_terminfo.go:3-46, builtin_rxvt_unicode_terminfo.go:3-46, builtin_screen_terminfo.go:3-46, builtin_xterm_terminfo.go:3-46, terminfo.go:169-186, terminfo.go:191-216, terminfo.go:29-46, terminfo.go:49-74.
* `Model/ClockText.lean`: `x/platform/hud.go:18,98,111-117,236`: the clock and the profiling sign in the header of the overlay. Simplified: `ctx.Time.Format(hudTimeFmt)` is Go's `time.Time.Format` for the layout "15:04:05.000000", written down from its documentation; a time is the nanoseconds since midnight of its day and zone.
  Cites: hud.go:111-117, hud.go:18,98, x/platform/hud.go:18,98,111-117,236.
* `Model/CmdRun.lean`: How the interactive commands end: `cmd/demo/main.go:17-34`, `cmd/interact/main.go:42-62`, `cmd/lolwut/interact.go:16-24` and `x/platform/platform.go:17-19` `MustRun`. `p.Run` is given by how it ends, time after time; entering and leaving the terminal, with the closing of files, succeeds. The commands' keys are in `Model/Demo`, `Model/InteractDraw` and `Model/Lolwut`.
  Cites: cmd/demo/main.go:17-34, cmd/demo/main.go:22-34, cmd/demo/main.go:42-57, cmd/interact/main.go:133-150, cmd/interact/main.go:42-62, cmd/interact/main.go:47-62, cmd/lolwut/interact.go:16-24, cmd/lolwut/interact.go:17-23, cmd/lolwut/interact.go:28-44, platform.go:17-19, signal.go:99-112, x/platform/platform.go:17-19.
* `Model/Colors.lean`: `ansi/colors.go` and the conversions of `ansi/sgr.go:371-443`: palettes and colour models.
  Cites: ansi/sgr.go:371-443, colors.go:442-447, colors.go:451-478, colors.go:493-499, colors.go:502-507, colors.go:521-530, colors.go:697-702, colors.go:706-719, colors.go:709-717, colors.go:711, colors.go:722-725, colors.go:9-89, colors.go:93-433, sgr.go:103-369, sgr.go:378-389, sgr.go:420-426, sgr.go:429-434, sgr.go:433, sgr.go:438-443.
* `Model/Config.lean`: `x/platform/config.go:20-83`, `x/platform/platform.go:72-90`: merging configurations. Options that are files or profilers are unexported and not merged; they are left out.
  Cites: config.go:20-31, config.go:58-61, config.go:64-83, platform.go:76-94, x/platform/config.go:20-83, x/platform/platform.go:72-90.
* `Model/Context.lean`: `context.go` and the running part of `term.go`: contexts and their combination, and running functions with and without a terminal's context.
  Cites: context.go:24-51, context.go:29-48, context.go:55-62, context.go:64-71, context.go:73-82, term.go:131-137, term.go:139-148, term.go:154-167, term.go:71-80, term.go:91-127.
* `Model/Decode.lean`: `ansi/decode.go:17-217`: decoding of control runes, escape sequences, control sequences and control strings.
  Cites: ansi/decode.go:17-217, ansi/decode.go:17-26, decode.go:156-203, decode.go:164-183, decode.go:205-217, decode.go:42-72, decode.go:67-71, decode.go:74-154.
* `Model/DecodeCmd.lean`: `cmd/decode/main.go`: printing what a stream of bytes is decoded to; and `MustRun` of `term.go`. Writing the output is assumed to succeed. What package `fmt` makes of byte strings (`%q`), of code points (`%q`, `%U`), of errors and of mouse reports are parameters.
  Cites: main.go:112-125, main.go:178-204, main.go:209-268, main.go:60-81, main.go:83-128, main.go:95-126, term.go:199-209.
* `Model/Demo.lean`: `cmd/demo/main.go:36-115`: the client of the demo command. The output is a `Screen`: the differ's buffer and user cursor, which `Clear` resets too and nothing else here uses, are left out. `ctx.Suspend` is given by the error it returns, and the log by the entries it is written for. `none` is a panic.
  Cites: cmd/demo/main.go:36-115, main.go:117-119, main.go:40-115, main.go:68-112, main.go:74, main.go:76-93, main.go:80-92, main.go:81-89, main.go:98-112.
* `Model/Differ.lean`: `screen.go`: the screen differ.
  Cites: screen.go:22-27, screen.go:45-48, screen.go:51-55, screen.go:58-64, screen.go:67-69, screen.go:85-125, screen.go:91-107, state.go:241-243.
* `Model/Draw.lean`: `draw.go`: drawing grids onto grids, and `style.go`.
  Cites: draw.go:15-39, draw.go:21-38, draw.go:25-34, draw.go:41-67, draw.go:46-52, style.go:108-113, style.go:119-124, style.go:149-154, style.go:156-161, style.go:20-22, style.go:27-47, style.go:29-38, style.go:30-37, style.go:59-61, style.go:68-73, style.go:83-88, style.go:95-100.
* `Model/EditLine.lean`: `x/platform/editline.go`: the line editor. `unicode.IsGraphic` is the parameter `gr`. The text is a byte slice; the copies within it are modelled by their results. Other behaviours than the default one cannot be set from outside the package, so `handleEvent` is always `defaultBehavior`.
  Cites: editline.go:100-103, editline.go:104-107, editline.go:108-111, editline.go:11-18, editline.go:113-114, editline.go:115-117, editline.go:127-141, editline.go:143-167, editline.go:169-200, editline.go:178-194, editline.go:202-217, editline.go:21-29, editline.go:32-39, editline.go:51-120, editline.go:59-61, editline.go:68-117, editline.go:68-94, editline.go:99-107.
* `Model/EscName.lean`: `ansi/escape.go:73-135`: how escape identifiers are printed. Strings are lists of bytes. Identifiers are natural numbers; the Go type also has negative values, which no function of the library makes.
  Cites: ansi/escape.go:73-135, escape.go:116-135, escape.go:75-108.
* `Model/Escape.lean`: `ansi/escape.go`: escape identifiers. An `Escape` is a Go `rune`; here `Nat`.
  Cites: ansi/escape.go:140-166, ansi/escape.go:46, ansi/escape.go:49, ansi/escape.go:53, ansi/escape.go:57-62, ansi/escape.go:66-71.
* `Model/Events.lean`: `x/platform/event.go`: the queue of input events.
  Cites: event.go:106-117, event.go:121-135, event.go:14-19, event.go:140-150, event.go:154-165, event.go:188-199, event.go:189-198, event.go:202-206, event.go:208-230, event.go:26-31, event.go:49-56, event.go:60-70, event.go:73-86, event.go:78-83, event.go:90-102.
* `Model/Flags.lean`: Command lines: `x/platform/config.go:38-56` `AddFlags` with `x/platform/platform.go:73-80`, `cmd/palette/main.go:47-52`, `cmd/decode/main.go:19-27`, `cmd/lolwut/main.go:47-54, 219-231`. The loop of Go's package flag (`FlagSet.Parse` and `parseOne`), `strconv.ParseBool` and `strconv.Atoi` are not part of the repository; they are modelled here as they are documented, with 64 bit integers. What is printed on errors is left out: the process ends. The flags a program defines on its own besides those of the platform are left out.
  Cites: cmd/decode/main.go:19-24, cmd/decode/main.go:19-27, cmd/lolwut/main.go:219-231, cmd/lolwut/main.go:47-54, 219-231, cmd/lolwut/main.go:48-54, cmd/palette/main.go:47-114, cmd/palette/main.go:47-52, cmd/palette/main.go:48-51, config.go:41-56, platform.go:35-92, platform.go:75, x/platform/config.go:38-56, x/platform/platform.go:73-80.
* `Model/Frame.lean`: `x/platform/platform.go:173-308` `Run`, `Context`, `Update` and `runClient`, and the beginning of `x/platform/hud.go:68-88` `HUD.Update`: the frame loop without a replay (`Model/Play.lean` has that). Not modelled here: the contents of the screen (`Model/Differ.lean`), telemetry, and what the overlay draws; the overlay's handling of input left by the client counts as the client's.
  Cites: hud.go:68-88, platform.go:145-153, platform.go:175-232, platform.go:191-229, platform.go:198-215, platform.go:199-215, platform.go:200-214, platform.go:253-296, platform.go:303-308, platform.go:98-131, screen.go:214-221, x/platform/hud.go:68-88, x/platform/platform.go:173-308.
* `Model/FramePlay.lean`: `x/platform/platform.go:175-308` `Run`, `Update` and `runClient` with `x/platform/replay.go:37-116` `update` and `runClient`: the frame loop with a replay. The replay itself is `Model/Play.lean`, the loop without one `Model/Frame.lean`. The zero time is 0 for the platform and `none` for a replay. Not modelled here: the mark of the mouse (`Model/PlayMouse.lean`), and what toggling a recording in a frame loads.
  Cites: hud.go:68-88, platform.go:190-232, platform.go:191-229, platform.go:253-286, platform.go:276-285, platform.go:288-296, platform.go:98-131, x/platform/platform.go:175-308, x/platform/replay.go:37-116.
* `Model/Geom.lean`: `ansi/geom.go`: points and rectangles. Coordinates are unbounded integers; the machine `int` cannot overflow for the sizes a terminal has. `image.Point` and `image.Rectangle` are represented by the same structures.
  Cites: geom.go:131-134, geom.go:14, geom.go:147-154, geom.go:165-171, geom.go:18, geom.go:185-201, geom.go:204-206, geom.go:210-231, geom.go:234-254, geom.go:258-260, geom.go:26-39, geom.go:263-267, geom.go:270-278, geom.go:282-290, geom.go:44-49, geom.go:53-58, geom.go:63-70, geom.go:73-75, geom.go:79-84, geom.go:88-93, geom.go:97-101.
* `Model/GeomText.lean`: `ansi/geom.go:112-128`, `137-144`: the rest of the arithmetic of points, and their text. Here the machine `int` is exact: products and quotients are taken modulo 2^64, as Go takes them. `Point.String` is that of `image.Point`, which is embedded (Go standard library, modelled by its documentation); a quotient by zero panics (`none`).
  Cites: ansi/geom.go:112-128, geom.go:112-114, geom.go:117-121, geom.go:124-128, geom.go:137-139, geom.go:142-144.
* `Model/Grid.lean`: `grid.go`: the cell grid. A grid's two parallel slices `Attr` and `Rune` are one list of cells: `cells` is the whole backing store up to the capacity and `len` the length of the slices (both are always allocated together with the same length and capacity, lines 40-44). Sub-grids share the store of their parent: a write through a sub-grid is modelled by a new store, which is then also the parent's. Sizes are natural numbers: `Resize` with a negative size is not modelled.
  Cites: grid.go:10-16, grid.go:108-112, grid.go:116-118, grid.go:122-124, grid.go:129-145, grid.go:149-171, grid.go:20-52, grid.go:55-76, grid.go:67-75, grid.go:68-72, grid.go:85-91, grid.go:95-97, grid.go:99-104.
* `Model/GridLines.lean`: `test/grid.go`: grids written as lines of text with SGR sequences, and read back. Strings are byte strings. A panic is `none`. `fmt` messages of panics are left out.
  Cites: ansi/sgr.go:624-629, grid.go:107-118, grid.go:121-139, grid.go:127-137, grid.go:128-134, grid.go:16-35, grid.go:23-32, grid.go:37-64, grid.go:39-62, grid.go:67-91, grid.go:71-89, grid.go:74-87, grid.go:94-104, grid.go:98-102.
* `Model/Group.lean`: Groups: the background workers of a run (`x/platform/bg.go:24-60`), and all profiles together (`x/platform/hud.go:715-776`), with the control that starts and stops them.
  Cites: bg.go:32-39, bg.go:43-50, bg.go:44-49, bg.go:53-60, hud.go:166-175, hud.go:716-719, hud.go:722-731, hud.go:752-759, hud.go:761-766, hud.go:767-772, platform.go:222-229, platform.go:303-308, term.go:92-127, x/platform/bg.go:24-60, x/platform/hud.go:715-776.
* `Model/Hud.lean`: `x/platform/hud.go`: the pieces the debug overlay is drawn with: the segments of its header line, detail rows and buttons. Simplified: a `*Context` is the virtual screen (`ctx.Output`) and the event queue (`ctx.Input`); `ctx.Output.Bounds()` is the rectangle of its grid; the theme, the mouse and the width of details are parameters. Texts made by `fmt` are parameters.
  Cites: ansi/geom.go:26-40, ansi/geom.go:53-58, hud.go:179-187, hud.go:189-200, hud.go:202-216, hud.go:218-230, hud.go:434-455, hud.go:446-448, hud.go:482-496, hud.go:799-812, hud.go:96-124.
* `Model/HudEdit.lean`: `x/platform/hud.go:62-65, 457-475, 498-581`: which control of the overlay is active, and choosing a file. Simplified: a frame is given by the controls it draws, in order, with their boxes (where these are is modelled in `Model/Hud`), and by what it reads. Between frames the client may draw anything, so the screen and the user's cursor are those each frame begins with; the buttons of the controls that are not active are left out. `create` is reported, not run.
  Cites: hud.go:457-475, hud.go:477-480, hud.go:518-581, hud.go:520-525, hud.go:548-562, hud.go:56-57, hud.go:71, x/platform/hud.go:62-65, 457-475, 498-581.
* `Model/HudPanels.lean`: `x/platform/hud.go:132-145, 284-300, 386-391, 498-516, 704-738`: the rows to choose files in, the panels for telemetry and profiling, and the order of all panels. Simplified as `Model/Hud`, `Model/HudEdit` and `Model/HudPick`. What a frame reads of files and profilers is a parameter: `create`, `start` and `stop` are reported, not run, and what they change is in what is read afterwards. Errors that are logged are left out.
  Cites: hud.go:132-145, hud.go:136, hud.go:136-144, hud.go:138-140, hud.go:142, hud.go:144, hud.go:284-300, hud.go:294-297, hud.go:386-391, hud.go:498-516, hud.go:507-511, hud.go:60, 716-719, hud.go:709-713, hud.go:715-732, x/platform/hud.go:132-145, 284-300, 386-391, 498-516, 704-738.
* `Model/HudPick.lean`: `x/platform/hud.go:302-377`: the list from which a profile to collect is added. Simplified: a profile is its name (`runtime/pprof` has one profile for a name); `all` is what `pprof.Profiles()` returns, `have_` the names in `Platform.pprofProfiles`.
  Cites: hud.go:302-377, hud.go:321-334, hud.go:341-351, hud.go:355-370, x/platform/hud.go:302-377.
* `Model/HudStats.lean`: `x/platform/hud.go:379-384, 393-432` `drawFPSDetail`, `drawFrameTiming` and `drawStallsDetail`: the panel that shows and switches the telemetry. Simplified as `Model/Hud`; the texts made by `fmt` and `time` are parameters, as their characters. The switches run on `Model/TeleLog`.
  Cites: hud.go:379-384, hud.go:393-412, hud.go:403-411, hud.go:414-416, hud.go:418-432, hud.go:424-431, x/platform/hud.go:379-384, 393-432.
* `Model/HudTiming.lean`: `x/platform/hud.go:232-282` `drawTimingDetail`: the panel with the controls for pausing and recording. Simplified as `Model/Hud`; the texts made by `fmt` and `time` are parameters, and `toggleRecRep` (`Model/Recording`) is reported, not run; that a pause switch sets `ctx.Time` to the time of the platform (`246`) is left out.
  Cites: hud.go:232-282, hud.go:240-253, hud.go:256-281, x/platform/hud.go:232-282.
* `Model/HudUpdate.lean`: `x/platform/hud.go:68-154`: the debug overlay around a client's frame. Simplified as `Model/Hud`: the texts of the header made by `fmt` and `time` are parameters, as are the details (`hud.go:132-145`), whose rows are modelled in `Model/Hud`, `Model/HudEdit` and `Model/HudPick`. The client is a function of the events and the screen it is shown; it does not change the overlay, nor does it look at `ctx.Platform` otherwise. `hud.bla`, which is written and not read, is left out.
  Cites: hud.go:132-145, hud.go:22-59, hud.go:68-154, hud.go:91-153, x/platform/hud.go:68-154, x/platform/platform.go:303-308.
* `Model/Input.lean`: `input.go:20-405`: reading and decoding terminal input, and the file flags. Recording is in `Model/Replay.lean`.
  Cites: input.go:130-168, input.go:173-222, input.go:20-405, input.go:227-274, input.go:238-247, input.go:24-37, input.go:278-284, input.go:287-295, input.go:346-361, input.go:363-370, input.go:372-387, input.go:389-397, input.go:93-103.
* `Model/Interact.lean`: `cmd/interact/main.go`: a command line with variables to be filled in. Strings are lists of bytes. Drawing is left out; whether a word was pressed (`CountPressesIn`) and what the edit line makes of the input are given from outside. `Model/InteractDraw` has both.
  Cites: grid.go:46, main.go:101-130, main.go:113-115, main.go:132-255, main.go:157-240, main.go:203-209, main.go:63-73, main.go:75-90, main.go:80-88, main.go:92-99.
* `Model/InteractDraw.lean`: `cmd/interact/main.go`: the same client with its screen: what `Update` draws, where its words can be pressed, and what the edit line makes of the events. The output is a `VirtualScreen` and the user cursor; the differ's record of the real screen, which nothing here reads, is left out. Running a command is given by its outcome, which may be different every time; `ctx.Suspend` by the error it returns; the log is left out. The size of `cmdOutput` is kept in `St.size` (see `Model/Interact`).
  Cites: main.go:101-130, main.go:102-128, main.go:122-128, main.go:123-127, main.go:132-255, main.go:157-240, main.go:159-187, main.go:203-209, main.go:241-249, main.go:252, main.go:72.
* `Model/Line.lean`: `cmd/lolwut/main.go:184-217`: `drawLine` and `abs`. Coordinates are unbounded integers; Go's `int` overflow is not modelled (it needs coordinates near `2^61`).
  Cites: cmd/lolwut/main.go:184-217, cmd/lolwut/main.go:186-210, cmd/lolwut/main.go:199-209, cmd/lolwut/main.go:200-207, cmd/lolwut/main.go:212-217.
* `Model/Log.lean`: `x/platform/log.go`: the log sink. Two parts: the memory buffer with its line index (a sequential program), and the way of the log lines to the log file (the main goroutine, which logs, and the worker of `Model/Worker.lean`).
  Cites: log.go:103-104, log.go:122, log.go:20-29, log.go:37-47, log.go:49-80, log.go:54-60, log.go:64-67, log.go:68-76.
* `Model/LogDraw.lean`: `x/platform/hud.go:605-670`: the log viewer's `Update` with its input and its drawing. `Model/LogView` has the choice of the lines. Simplified as `Model/Hud`; `Logs.Sink` is the log, which does not change during the call.
  Cites: hud.go:605-670, hud.go:616-622, hud.go:655, hud.go:661-668, x/platform/hud.go:605-670.
* `Model/LogSet.lean`: `x/platform/log.go:49-61, 83-148`: where log lines go when the log file is changed. `Model/Log.lean` has one file and all interleavings with the worker; here the worker always comes to rest before the main goroutine goes on, and writing to an open file succeeds. Files are numbers.
  Cites: bg.go:98-109, log.go:100-107, log.go:108-124, log.go:128-148, log.go:20-29, log.go:49-61, 78, log.go:86-96, x/platform/log.go:49-61, 83-148.
* `Model/LogView.lean`: `x/platform/hud.go:583-702`, `799-812`: the log viewer, and truncated writing. The mouse input is given by what `Update` asks of it: the number of presses on the header and the total scrolling. What is drawn is given by the slices of the log that are handed to `writeTruncated`, top to bottom.
  Cites: hud.go:593-597, hud.go:605-670, hud.go:608-635, hud.go:657-668, hud.go:661-668, hud.go:672-684, hud.go:686-702, hud.go:694-696, hud.go:697-699, hud.go:799-812, x/platform/hud.go:583-702.
* `Model/Lolwut.lean`: `cmd/lolwut/main.go:74-176` and `cmd/lolwut/interact.go`: the squares of the picture and the interactive mode. The parts computed in floating point are given from outside, and are arbitrary: for each square the shift of its centre and its five turned corners (`rotPt` with the angles of lines 167-171). Logging is left out, and so is the slow change of the angle, which only the given part depends on.
  Cites: cmd/lolwut/main.go:74-176, interact.go:26-86, interact.go:44-51, interact.go:53-70, interact.go:72-74, interact.go:72-78, main.go:107-138, main.go:109-137, main.go:110-136, main.go:111-112, main.go:169-174, main.go:74-88, main.go:92-103.
* `Model/Mode.lean`: `mode.go`: mode set and reset strings.
  Cites: ansi/control.go:155-182, mode.go:11-15, mode.go:18-25, mode.go:28-35, mode.go:38-42, mode.go:46-50, mode.go:54-61.
* `Model/Mouse.lean`: `ansi/mouse.go`: mouse states and xterm's extended mouse reports.
  Cites: mouse.go:14-25, mouse.go:160-195, mouse.go:30-36, mouse.go:40-42, mouse.go:45, mouse.go:48, mouse.go:51-56, mouse.go:59-62, mouse.go:9.
* `Model/MouseName.lean`: `ansi/mouse.go:64-136`: the names of mouse states.
  Cites: ansi/mouse.go:64-136, mouse.go:115-136, mouse.go:64-90, mouse.go:66-85, mouse.go:93-112.
* `Model/Num.lean`: `ansi/decode.go:219-306`, `515-551`: numbers, points, modes, cursor moves.
  Cites: ansi/decode.go:219-306, ansi/geom.go:5-8, ansi/modes.go:8, decode.go:219-224, decode.go:230-294, decode.go:248-258, decode.go:264, decode.go:265, decode.go:269-293, decode.go:275-281, decode.go:298-306, decode.go:516-529.
* `Model/OpenTerm.lean`: `term.go:10-57` `OpenTerm`, `openTermFiles` and `IsStandardTermFile`, with `attr.go:27-31, 42-47` `IsTerminal`. Files are numbers, given out in order. Whether a file is a terminal, and whether opening "/dev/tty" for reading and for writing succeeds, is given. What the comment of `openTermFiles` says about the log is not done by it.
  Cites: attr.go:27-31, 42-47, attr.go:42-47, term.go:10-57, term.go:13-19, term.go:25-46, term.go:26-38, term.go:39-45, term.go:51-57.
* `Model/Output.lean`: `output.go`: flushing buffered output into a file, and stall records.
  Cites: output.go:14-18, output.go:32-38, output.go:44-53, output.go:65-76, output.go:78-95, output.go:97-102.
* `Model/Palette.lean`: `cmd/palette/main.go`: the command that lists the palettes, every colour shown as a foreground and as a background, with the controls that select it. Left out: the parsing of the arguments (`Model/Flags.lean`). What the command is given here are the names of the models asked for, in order, and whether themes are asked for. All text printed is ASCII, so that the runes counted for padding are bytes.
  Cites: ansi/colors.go:22-31, ansi/colors.go:533-550, ansi/colors.go:553-570, ansi/colors.go:573-590, ansi/colors.go:593-610, ansi/colors.go:613-630, ansi/colors.go:633-650, ansi/colors.go:653-670, ansi/colors.go:673-690, ansi/colors.go:9-18, main.go:10-17, main.go:19-25, main.go:27-30, main.go:33-45, main.go:47-114, main.go:48, main.go:54-113, main.go:57-60, main.go:62-66, main.go:68-72, main.go:68-87, main.go:74-83, main.go:89-113, main.go:93-97, main.go:98-112, main.go:99-111.
* `Model/PlatNew.lean`: `x/platform/platform.go:35-92` `New`, `x/platform/config.go:58-61, 85-133` `Config.apply` and `setup`, `x/platform/options.go` and `term.go:199-209` `MustRun`. Files are numbers, given out in order; that files of one name are one file is not modelled. The log is that of `Model/LogSet.lean`. The terminal that is made (`platform.go:38-62`) is in `Model/Session.lean`; it and the overlay (`hud.go:156-166`) are left out here, except for the error of `Term.Notify`. `New` creates all buffers but those for timing anew with fixed sizes; these are left out, too.
  Cites: config.go:104-110, config.go:112-118, config.go:120-130, config.go:85-133, config.go:88-92, config.go:94-102, diag.go:170-177, diag.go:337-353, hud.go:156-166, log.go:128-148, options.go:17-26, options.go:28-35, platform.go:35-92, platform.go:38-62, platform.go:64, platform.go:66-69, platform.go:67, platform.go:81-85, signal.go:106-112, term.go:199-209, x/platform/config.go:58-61, 85-133, x/platform/platform.go:35-92.
* `Model/Play.lean`: `x/platform/replay.go:37-116, 146-153, 218-243`: replaying a recorded session, and sizes. Not modelled: the mouse shown on the screen (`drawOverlay`), and messages to the log.
  Cites: replay.go:218-227, replay.go:229-243, replay.go:24-35, replay.go:37-116, replay.go:73-87, replay.go:74-83, x/platform/replay.go:37-116, 146-153, 218-243.
* `Model/PlayMouse.lean`: `x/platform/replay.go:31-34, 96-105, 118-144`: the mouse's mark in a replay. The escapes to save and restore the cursor that are written to the screen around it (`replay.go:131, 143`) change neither cells nor cursor of a virtual screen, and are left out.
  Cites: replay.go:118-126, replay.go:128-144, replay.go:131, 143, replay.go:31-34, replay.go:93-94, replay.go:96-105, x/platform/replay.go:31-34, 96-105, 118-144.
* `Model/Process.lean`: `buffer.go`: the deferred output buffer and the stream processor.
  Cites: buffer.go:108-126, buffer.go:131-133, buffer.go:136-141, buffer.go:14-17, buffer.go:145-147, buffer.go:150-166, buffer.go:36-39, buffer.go:42-48.
* `Model/Profile.lean`: `x/platform/config.go:135-403`: CPU profiling, execution tracing, and profiles written at the end (like memory). Files are numbers, given out in order, with their contents (`Model/Sized.lean`). `os.Create` makes a new empty file (that another open file may have the same name is not modelled). The profilers of the Go runtime write what they like to the file they were started with, until they are stopped, and can only be started when they are not running. Not modelled: messages to the log, and users of the profilers other than the platform.
  Cites: config.go:136-149, config.go:143-147, config.go:153-161, config.go:155-157, config.go:163-171, config.go:173-178, config.go:196-228, config.go:247-252, config.go:254-259, config.go:275-280, config.go:282-287, config.go:289-313, config.go:300-312, config.go:315-326, config.go:32-36, config.go:367-377, config.go:379-386, config.go:388-403, x/platform/config.go:135-403.
* `Model/Recording.lean`: `x/platform/replay.go:155-227`: starting and stopping a recording, and loading it as a replay; `input.go:306-311`: what goes to the recording while it is on. Files are numbers, given out in order. What is in them is in `Model/Sized.lean`, `Model/Replay.lean` and `Model/Play.lean`; here it is what is done with them. Not modelled: messages to the log.
  Cites: input.go:306-311, platform.go:98-131, replay.go:155-187, replay.go:156-162, replay.go:164-174, replay.go:189-199, replay.go:201-216, x/platform/replay.go:155-227.
* `Model/Render.lean`: `render.go` and the update half of `state.go`: writing grids, cursor states and screens as bytes. The destination is an `ansiWriter` that appends (a `Buffer`); the functions return the bytes appended. `none` is a panic or a call that never returns; theorem `update_shows_partial` and others show where neither happens.
  Cites: buffer.go:89-106, render.go:15-25, render.go:27-37, render.go:39-64, render.go:47-62, render.go:49-55, render.go:58-61, render.go:66-115, render.go:76-113, state.go:215-224, state.go:234-245, state.go:242-243.
* `Model/Replay.lean`: `input.go:306-332, 456-541`: recording input and reading a recording back. Times are values of any type `τ`, as far as the RFC 3339 format with nanoseconds can tell them apart; formatting and parsing are parameters. The zero time is `none`.
  Cites: input.go:306-332, input.go:306-332, 456-541, input.go:410-416, input.go:456-541, input.go:465-470, input.go:472-478, input.go:480-487, input.go:489-525, input.go:500-524, input.go:527-539, input.go:68-77.
* `Model/ReplayText.lean`: `input.go:424-453` `InputReplay.Duration` and `InputFrame.String`. A time is a number of nanoseconds since the zero time, the beginning of the year 1; a duration is 64 bits. Texts of times and quoting (`%q`) are parameters.
  Cites: input.go:424-453, input.go:425-430, input.go:432-453.
* `Model/Restore.lean`: `x/platform/state.go` `writeState` and `readState`, and `x/platform/platform.go:175-183`: the state a run with a replay starts from. Of `encoding/gob` this much is modelled: a struct is sent as its fields that are not zero, each with the difference of its number to that of the one before; receiving sets the fields that were sent and leaves the others as they were. Structs within structs are taken apart into their fields. Writer and reader have the same types; types that gob cannot send, pointers, maps, interfaces, and slices other than of numbers are not modelled. `readState` after a `writeState` that failed is not, either: then there is no recording (`Model/Recording.lean`).
  Cites: platform.go:178-183, replay.go:24-35, replay.go:37-109, state.go:15-28, state.go:30-44, state.go:8-13, x/platform/platform.go:175-183.
* `Model/Seq.lean`: `ansi/control.go`: building and encoding of escape and control sequences, and `ansi/modes.go`.
  Cites: ansi/funcs.go:41-502, ansi/modes.go:12-17, ansi/modes.go:20-25, control.go:119, control.go:122-135, control.go:139-152, control.go:155-182, control.go:16-27, control.go:184-198, control.go:200-216, control.go:207-210, control.go:211-214, control.go:219-231, control.go:234-239, control.go:29-36, control.go:60-83, control.go:72-80, control.go:8-11, control.go:89-115, decode.go:532-551, funcs.go:258.
* `Model/SeqName.lean`: `ansi/control.go:241-250`: how sequences are printed.
  Cites: ansi/control.go:241-250, control.go:241-250.
* `Model/Session.lean`: What a platform's terminal writes besides the frames: the modes it is made with (`x/platform/platform.go:56-62`) and what its screen does when it is entered and exited (`screen.go:196-221`).
  Cites: ansi/funcs.go:408, ansi/funcs.go:413, ansi/modes.go:37, 38, 43, 48, ansi/sgr.go:50, mode.go:38-42, mode.go:55-60, screen.go:196, screen.go:196-221, screen.go:200-210, screen.go:214-221, x/platform/platform.go:56-62.
* `Model/Sgr.lean`: `ansi/sgr.go` and `ansi/decode.go:308-513`: SGR attributes.
  Cites: ansi/decode.go:308-513, decode.go:310-397, decode.go:325-341, decode.go:399-414, decode.go:416-426, decode.go:440-456, decode.go:458-469, decode.go:471-492, decode.go:494-513, decode.go:499-511, sgr.go:101, sgr.go:371-373, sgr.go:410-412, sgr.go:415-417, sgr.go:445-457, sgr.go:459-471, sgr.go:473-485, sgr.go:487-499, sgr.go:501-506, sgr.go:508-513, sgr.go:53, sgr.go:535-541, sgr.go:545-550, sgr.go:554-559, sgr.go:562, sgr.go:565, sgr.go:568-580, sgr.go:584-620, sgr.go:60-74, sgr.go:634-684, sgr.go:644-652, sgr.go:644-661, sgr.go:653-660, sgr.go:687-721, sgr.go:77-84, sgr.go:86-96.
* `Model/SgrName.lean`: `ansi/sgr.go`: how colours and attributes are printed. Strings are lists of bytes.
  Cites: sgr.go:391-407, sgr.go:515-533, sgr.go:723-755, sgr.go:724-752.
* `Model/Signal.lean`: `signal.go`: the signal channel and the goroutines that use it.
  Cites: signal.go:41-49, signal.go:52-58, signal.go:63-70, signal.go:79-89.
* `Model/Sized.lean`: `x/platform/replay.go:256-320`: sections with a size prefix. The file is a list of bytes with a position; all system calls succeed and write all they are given. Sizes are natural numbers here; they are put into 64 bits when written.
  Cites: replay.go:256-263, replay.go:273-278, replay.go:280-295, replay.go:297-320, x/platform/replay.go:256-320.
* `Model/Slice.lean`: Go slices: views of shared backing arrays.
* `Model/Sprite.lean`: `bitmap.go:91-99, 197-207`: bitmaps written in the source of a program, and parts of bitmaps.
  Cites: bitmap.go:197-201, bitmap.go:203-207, bitmap.go:91-99, bitmap.go:91-99, 197-207, render_test.go:17-18.
* `Model/Stall.lean`: `input.go:543-556` `unwrapOSError`, and `output.go:65-95` `Flush` of a screen (`screen.go:85-125`) into a file that may not take all of it at once. Calls of `fcntl` succeed here; see `Model/Output.lean` for their failures.
  Cites: input.go:543-556, output.go:65-76, output.go:65-95, output.go:78-95, screen.go:85-125.
* `Model/State.lean`: `state.go`: the tracked cursor and the screen emulator. `unicode.IsGraphic` is a parameter `gr` of every definition that uses it. A loop that makes no progress, and so never ends, is `none` in the cursor functions and `.error .hang` in the screen functions; `.error .panic` is a Go panic (index out of range). Coordinates are unbounded integers.
  Cites: ansi/modes.go:55, state.go:107-115, state.go:118-127, state.go:12-17, state.go:133-176, state.go:180-184, state.go:186-199, state.go:202-204, state.go:23-30, state.go:261-273, state.go:279-346, state.go:315-328, state.go:317-327, state.go:35-38, state.go:362-384, state.go:363-365, state.go:375-382, state.go:386-448, state.go:42-45, state.go:450-455, state.go:457-463, state.go:465-476, state.go:484-496, state.go:49-51, state.go:61-65, state.go:76-79, state.go:83-91, state.go:95-103.
* `Model/StateText.lean`: `state.go:67-73`, `x/platform/event.go:167-168`, `x/platform/hud.go:122-124`: how cursors, screens, events and three of the header's segments are printed. `%v` of a value with a `String` method is what that returns, of a boolean `true` or `false`; `%s` of bytes is the bytes; `% 5v` of a number that is not negative is a blank and its digits, with blanks before them up to five characters (Go standard library, modelled by its documentation).
  Cites: event.go:167, event.go:168, grid.go:79-81, hud.go:122, hud.go:123, state.go:67-69, state.go:67-73, state.go:71-73, x/platform/event.go:167-168, x/platform/hud.go:122-124.
* `Model/Suspend.lean`: `term.go:172-187` `Suspend`, with `RunWithout` (`term.go:154-167`) around it: the goroutine that calls it, the process stopped and continued from outside, and the goroutine of Go's `os/signal` that hands signals on. `os/signal` does not wait when it sends to a channel, and the channel of `Suspend` (line 177) has no buffer: a signal is received only if the receiver is already waiting. Between the return of `syscall.Kill` and the receive (line 184) the goroutine can be anywhere; `recv` is before the receive and `blocked` in it. A stopped process does nothing. The contexts are taken as one, with the results of their `Exit` and `Enter` given; logging is left out.
  Cites: term.go:154-167, term.go:172-187.
* `Model/TeleFile.lean`: `x/platform/diag.go:337-353` `telemetryCollector.create` and the writing of `logData` (`diag.go:364-370, 420-425`), on files. A file is known by its name (no links, no removal); a handle has a name, an offset and is open or closed. `os.Create` empties the file; it is called before the lock is taken, so the worker may log between it and the rest. What the worker writes is any text. After `Close` a handle is closed, also when an error is returned (as in Go's `os`); closing or writing to a closed handle is an error without effect. Not modelled: the sending of errors to `coll.e`, and logging without a file.
  Cites: config.go:88-92, diag.go:337-353, diag.go:342-352, diag.go:364-370, 420-425, hud.go:551, x/platform/diag.go:337-353.
* `Model/TeleLog.lean`: `x/platform/diag.go:24-30, 160-231, 278-301, 320-453`: the switches of telemetry, what is collected in a frame and what is logged of it, with `output.go:32-53, 97-102` and the order of a frame in `x/platform/platform.go:190-226`. Times are as in `Model/Telemetry`. Slices that share memory are modelled as such: what is collected of stalls is a length of the output's buffer (`Ref.shared`) as long as that is in use, and what is collected of timing is whatever `Timing.ds` holds when it is logged. The lock is left out: the worker logs between frames, or not. Not modelled: floating point results (`FPSEstimate`, `FPS`, and the quotient `Pct`, of which the two numbers are kept), errors of writing to the file, and the text of `log.Printf` when there is no file.
  Cites: diag.go:13-22, 320-332, diag.go:160-167, diag.go:169-177, diag.go:179-188, diag.go:205-231, diag.go:24-30, diag.go:278-301, diag.go:364-435, diag.go:377-384, diag.go:386-418, diag.go:388-402, diag.go:404-418, 427-434, diag.go:437-446, hud.go:389, hud.go:390, hud.go:399-402, hud.go:420-423, output.go:32-38, output.go:32-53, 97-102, output.go:44-53, output.go:97-102, platform.go:190-226, state.go:24, x/platform/diag.go:24-30, 160-231, 278-301, 320-453, x/platform/platform.go:190-226.
* `Model/Telemetry.lean`: `x/platform/diag.go:40-48, 78-158, 190-199, 233-301` frame timing, output stalls and resource usage, and `x/platform/options.go:17-26` `FrameRate`. Times are nanoseconds from the zero time, which is 0; `time.Time.Sub` is exact (the code's saturates at about 292 years). Not modelled: floating point results (`FPS`, `Pct`, `FPSEstimate`). The switches and the log are in `Model/TeleLog`.
  Cites: diag.go:111-122, diag.go:125-133, diag.go:136-143, diag.go:150-158, diag.go:190-199, diag.go:233-276, diag.go:240-264, diag.go:278-301, diag.go:287-295, diag.go:40-43, diag.go:45-48, diag.go:78-109, diag.go:91-107, diag.go:94-99, options.go:17-26, x/platform/diag.go:40-48, 78-158, 190-199, 233-301, x/platform/options.go:17-26.
* `Model/Terminfo.lean`: Package `terminfo`: reading compiled entries and finding them. A file is its bytes; every read gets as much as an oracle says, at least a byte unless at the end. `binary.Read` reads all it needs (`io.ReadFull`) and fails at the end of the file. Strings are lists of bytes.
  Cites: builtin.go:10-26, read.go:10, read.go:11, read.go:117-126, read.go:128-136, read.go:138-154, read.go:15-39, read.go:43-57, read.go:64-115, terminfo.go:138-164, terminfo.go:144-147, terminfo.go:77-81, terminfo.go:85, terminfo.go:90-130.
* `Model/Through.lean`: `render.go:159-187`: `WriteGrid`, `Screen.Update` and `Cursor.ApplyTo` (`state.go:209-213`, `230-232`) with a destination that has none of the methods for writing sequences: all is put together in a buffer first and then written with one `Write`. The destination is given by what its `Write` answers; Go's `bytes.Buffer.WriteTo` is modelled from its documentation and source: it writes nothing if the buffer is empty, panics if more bytes were taken than given, and reports a short write without an error as one.
  Cites: buffer.go:42-48, render.go:15-25, render.go:159-175, render.go:159-187, state.go:209-213, state.go:230-232.
* `Model/Ticker.lean`: `x/platform/tick.go`: the ticker of the frame loop. Tickers (of package time) and channels are numbers, given out in order. Times are natural numbers other than zero (which is the zero time).
  Cites: platform.go:31, tick.go:11-16, tick.go:20-28, tick.go:31-41, tick.go:45-56.
* `Model/To24.lean`: `cmd/to24bit/main.go`: a filter that turns the legacy colours in a stream of terminal output into 24-bit ones. Writing the output is assumed to succeed.
  Cites: main.go:24-48, main.go:50-66, main.go:51-64, main.go:68-111, main.go:79-98.
* `Model/Utf8.lean`: Go's `unicode/utf8` (standard library, go1.11 `utf8.go`), modelled by its documentation and acceptance tables.
* `Model/VCursor.lean`: `cursor.go`: the virtual cursor.
  Cites: cursor.go:108-110, cursor.go:114-116, cursor.go:120-122, cursor.go:126-128, cursor.go:14-19, cursor.go:23-26, cursor.go:31-42, cursor.go:47-92, cursor.go:96-104, cursor.go:97-99.
* `Model/VScreen.lean`: `screen.go`: the virtual screen, i.e. the emulator fed through a buffer.
  Cites: screen.go:129-173, screen.go:177-188, screen.go:178-182, screen.go:190-193, screen.go:39-42, state.go:202.
* `Model/Worker.lean`: `x/platform/bg.go` and the worker of `x/platform/log.go`: a background worker, and the goroutine that stops it.
  Cites: bg.go:74-83, bg.go:76, bg.go:77, bg.go:82, bg.go:85-96, bg.go:98-109, log.go:108-119, log.go:110, log.go:99-106.
* `Model/WriteBitmap.lean`: `render.go:117-160`: writing a bitmap as braille runes. The destination is an `ansiWriter` that appends (a `Buffer`); the functions return the bytes appended. `none` is a panic or a call that never returns.
  Cites: render.go:117-160, render.go:120-131, render.go:124-129, render.go:135-155, render.go:139-154, render.go:140-153.

## What is not modelled

* The floating point parts of `cmd/lolwut`; `test/` other than `test/grid.go`; the tests and examples.
* In `x/platform/hud.go`: the texts of durations and frame rates; what the panels put together show in a frame in which a file or profile is being chosen (what they take is C152, and each control is in `Model/HudEdit` and `Model/HudPick`); the floating point results of telemetry and errors of writing its log (`diag.go`); the bytes of the gob encoding (which fields it carries over is modelled).
* The kernel side of ioctl/fcntl;
  the BSD variants of the termios calls; the Go scheduler, memory model and garbage collector.
* Terminal behaviour outside the specification: scrolling regions, tabs, wide and
  combining characters, character sets.

## Violations found

Properties the code does not have in full; the negations are proved (see the theorems below).

* C01 SGR attribute codec round trip: Round trip proved for every style without Conceal; the code drops code 8 on decode (negation proved). The empty style encodes as a reset.
* C05 Number arguments decode exactly: Exact for values up to 1<<63-1; the code wraps instead of reporting a range error (negation proved).
* C08 Escape and charset sequences round trip: Character-set selections do not round trip in the code (negation proved).
* C10 Sequence Size is an upper bound: The bound fails for some sequences (negation proved).
* C15 Processing is independent of write chunking: Proved for splits at item boundaries and inside escapes that have only intermediates so far; other splits give different events in the code (negations proved).
* C16 Processing never wedges or hangs: Termination of the byte loop and a full classification of leftovers proved; ESC ESC wedges the code for good (negation proved).
* C18 Grid cells are addressed injectively and in range: Grids made by resizing a sub-grid that does not start at the first cell overrun the arrays (negation proved).
* C20 Resize gives the requested size: A resize to zero width and non-zero height makes the width stick at zero (negation proved).
* C22 Styled DrawGrid stays inside the overlap: Styled drawing advances neither the destination column nor the source row in its loop conditions (negations proved).
* C23 Style combination is sequential composition: The no-op style alone zeroes the attribute (negation proved).
* C24 Bitmap to braille runes is exact: Positions outside the bounds whose block reaches into the bitmap give a blank rune (negation proved).
* C26 Loading bitmaps pads to whole rows: A final partial row is dropped, short data panics, leading empty lines are accepted (negations proved).
* C28 Printing changes exactly one cell: A print in the last cell leaves the cursor in the first column of the same row without scrolling (negation proved).
* C29 Erase operations clear the documented region: Erase to end of display leaves the cursor cell and the default parameter is ignored (negations proved).
* C30 Line feed on the last row scrolls: A line feed on the last row never scrolls (negation proved).
* C31 Cursor motion sequences reach the target: Straight vertical moves emit nothing and moves within a row after writing its last column are one short (negations proved).
* C32 Screen updates display the new contents: Proved when no awkward cursor jump is needed and no background is in force on an erasing terminal; the rest fails (negations proved).
* C33 After an update the recorded state equals the screen: A screen of zero width and non-zero height is not recorded (negation proved).
* C34 Interrupted frame output resumes correctly: The bytes of an interrupted frame are delivered once and in order; the record after resuming, and calls made in between, go wrong (negations proved).
* C35 Everything staged is flushed: Proved when nothing is left over in the buffer; a style call or an unfinished sequence before the flush drops the frame (negations proved).
* C36 Virtual cursor tracks the terminal: All sessions a size-blind tracker can follow; the rest fails (negations proved).
* C38 Context combination order: Ordering proved; combining two lists that share a backing array overwrites contexts when the runtime leaves spare capacity (negation proved).
* C39 Terminal contexts are always exited: A RunWith inside RunWithout closes early and an error inside RunWithout exits twice (negations proved).
* C42 Input file flags are restored: Flags are restored except for files Go found in non-blocking mode; blocking reads never come back after ReadAny (negations proved).
* C43 Input decoding does not depend on read boundaries: Proved for cuts between items and anywhere inside control sequences and strings after the introducer; cuts inside an introducer, a text character or an ESC sequence change the events (negations proved).
* C44 Input recordings replay faithfully: Proved for sessions of plain input and messages without errors, up to a zero byte put in for every read; errors come back as messages, and strings, some Alt keys and unfinished input are lost or changed (negations proved).
* C45 Output stalls are bounded and flags restored: Bytes and stall records are proved in full; the mode is not restored for files Go found in non-blocking mode (negation proved).
* C46 Signals never block the sender: Proved for a signal that has been opened and for a lone sender; several senders on an unopened signal, or Close during the first send, can block for ever (negations proved).
* C47 Stopping a background worker always returns: Stop returns when the worker waits and nothing is pending; otherwise there are schedules in which Stop hangs for ever (negations proved).
* C48 Line editor implements text editing: Proved for all sessions without a backspace in the middle of the text; there the code removes the character at the cursor instead of the one before it (negation proved).
* C49 Event queries consume exactly the matching events: All queries mark and count exactly, except that a rune asked for twice is counted twice; decoding appends one entry per item for whole items, and cancelled sequences or private use characters are misread (negations proved).
* C50 Log sink indexes lines exactly: Proved for all histories of whole-line writes and partial reads; after any write not ending in a newline every later write panics (negation proved).
* C51 Log view window stays in range: Proved for all sessions in which the log only grows; reading lines out of the log while scrolled panics (negation proved).
* C52 Sized sections read back: Proved for one or more writes and a first read that gets the whole size; a section never written to has no size, a short first read gives a wrong size, and a cut section is accepted (negations proved).
* C53 Compiled terminfo strings are read correctly: Proved for entries with offsets for all capabilities asked for, with no absent ones unless the last string is in the first 256 bytes; otherwise absent capabilities read as junk (negations proved).
* C54 Palette lookup returns a nearest colour: The result is within 3 of the least squared distance, and exact for palette members with no near neighbour before them; the early exit can return a neighbour of an exact match (negation proved).
* C56 Image and terminal coordinates convert both ways: RectFromImage always returns the zero rectangle (negation proved).
* C57 Mouse reports decode exactly: Codes from 128 on, the wheel's fourth direction and some malformed reports are misread (negations proved).
* C58 Mode set and reset sequences are exact: Mode numbers that do not fit are read back as other numbers (negation proved).
* C59 Platform configuration merging keeps the first setting: All fields merge with the first set one winning, except StartTiming, which is dropped (negation proved).
* C60 Grid equality means same size and same contents: Eq compares the stores only, not the bounds (negations proved).
* C61 Transparency styles keep exactly what is missing: TransparentAttrBGFG is not the combination of the two single styles (negation proved).
* C65 Enter and Escape end the editing: Proved when Enter or Escape is the last event of its frame; keys after it in the same frame still change the text and the outcome (negation proved).
* C66 The edit line is drawn in its box with the cursor in view: The window and the cells drawn are exact for a non-empty text with a free column after it; with a full box the cursor and a blank are outside the box, and an empty line can blank a foreign cell (negations proved).
* C67 Log lines reach the log file: Proved for all schedules in which no flush fails and nothing is logged during a flush; otherwise lines are lost (negations proved).
* C68 Truncated text fits its width: Proved for widths of at least one; for width zero an ellipsis is still written (negation proved).
* C70 Combined colour models apply each in turn: Conversion in turn proved for all lists; combining can overwrite an earlier combination sharing its backing array (negation proved).
* C71 Terminfo entries are looked for where they should be: Search path, order, caching and builtin choice proved; an empty name panics, and an unreadable file hides the builtin entry (negations proved).
* C73 A replay shows the recorded frames in order: Recorded frames with a time are shown in order under all user keys; while paused the client gets the live keys, and frames without a time are dropped (negations proved).
* C74 SGR sequences read mean what they mean on a terminal: Proved for parameters 0-7, 30-37, 40-47, 90-97, 100-107 and all indexed and 24-bit ones in any order; an empty sequence, and 8, 22-24, 27, 28, 39 and 49, are ignored (negations proved).
* C76 The 24-bit filter keeps everything but makes colours 24-bit: Proved for streams of runes outside the escape range and CSI sequences, for foreground colours; backgrounds are not converted, strings, private-use runes, charset selections and runes split between reads are lost or mangled (negations proved).
* C78 The virtual screen shows what a terminal would show: Proved for sessions without the situations where it fails: carriage return or relative motion right after a full line, motion by zero, position with the column left out (negations proved); scrolling, erasing below, SGR codes (negations in C29, C30, C74); coloured erasure.
* C81 Input reaches the client once: Proved for clients that handle all their input and at most one read in a frame; a second read in a frame drops what the first one brought, and input left by the client is shown again (negations proved).
* C82 Frame timing statistics describe the round: Quartiles proved for round lengths that are multiples of four; at the default rate Q3 is not the third quartile, and frames at one time at the start of a round are lost from Min (negations proved). FPS, a float, is not modelled.
* C85 Resource use is reported over the windows asked for: Proved for samples closer together than the windows; otherwise a difference can exceed its window (negation proved).
* C86 A recorded session replays as it was: Proved for sessions of plain input read in whole things without a change of size and replayed from one read; changes of size are not recorded, and a read ending within a sequence swallows the mark of the next (negations proved).
* C87 Recordings are begun and ended cleanly: All but the last clause is proved for all histories and failures; failures to begin a recording are not returned (negation proved).
* C88 Profiling runs between entering and leaving, into its file: That the context says so is proved when syncing succeeds; after a failed sync profiling cannot be started again, and a failing Enter leaves the CPU profiler running (negations proved).
* C89 Waiting for the next frame ends with a tick or with the ticker: Proved for waits begun while active; a wait begun when not active never returns (negation proved).
* C90 Changing the log file loses no line: No line is lost in changes from file to file while the worker is there, and they are in the right file if nothing is waiting; otherwise lines go to the wrong file or are lost (negations proved). The worker is at rest between calls.
* C92 The overlay's rows, buttons and switches are drawn where they are clicked: Headings, buttons and switches proved for screens wide enough; the box of a row is one column off its text, and narrow screens panic (negations proved).
* C93 Choosing a file in the overlay: Proved for frames that draw the same controls in the same order; controls are known by the order they are drawn in, so text goes to another control when details are shown or hidden, and a press on a control drawn earlier does not end editing (negations proved).
* C94 The list of profiles adds the profile that is clicked: Proved for names shorter than the column, rows below the list and one press in a frame; otherwise a profile is added twice, another is added, it panics or the last row is dead, and with no profile left the list is never closed (negations proved).
* C95 A bitmap written to a terminal is shown there: Proved without styles and for styles that are never empty, for bitmaps starting at row zero; a block with an empty style keeps the style of the block before it, and parts of bitmaps starting lower are shown one row too low (negations proved).
* C98 The log viewer shows its lines where they can be read and clicked: Exact cells proved for all logs of printable runes on screens with more rows than the viewer's lines and wide enough for the title; each line has its row when the log has three lines more than are shown and lines are narrower than the screen; otherwise lines and title are written over each other, the title is not where the click is, and short screens panic (negations proved).
* C99 The overlay leaves the client alone: Proved for screens with room for the header and the log (C91, C98); the cursor and style are not restored, the overlay is drawn in the client's style, and presses on it reach the client (negations proved).

## Plan and result per property

For each property: how it is modelled and proved, its status, and the theorems that make it up (names below `Anansi.`). Theorems said to be about *violations* prove that the code does **not** have the full property, by a concrete witness.

### C01 SGR attribute codec round trip

Sgr.lean + Decode.lean, byte level. Round-trip proved by following AppendTo field by field through DecodeSGR. Conceal is encoded as 8 but dropped by the decoder: negation plus partial.

Status: **partial**. Round trip proved for every style without Conceal; the code drops code 8 on decode (negation proved). The empty style encodes as a reset.

* `Sgr.sgr_roundtrip_partial`: C01 (all styles but concealed ones, see `sgr_conceal_lost`): the encoding of any style's attribute, followed by any bytes, decodes to the SGR escape and consumes exactly the encoding; its argument decodes without error to the same attribute. The empty style is encoded as a reset, so it decodes to `Clear`.
* `Sgr.sgr_conceal_lost`: C01 fails for concealed text: `SGRAttrConceal` encodes as code 8, which `DecodeSGR` drops.

### C02 SGR diff then merge reaches the target

Attributes as BitVec 64; proved bitwise for all pairs.

Status: **proved**. 

* `Sgr.sgr_merge_diff`: C02, for every style pair: merging the difference gives the target style; the `Clear` bit, which is an instruction and not a display attribute, is never left set unless the receiver already carried it.
* `Sgr.sgr_diff_self`: C02, second half: the difference between an attribute and itself is nothing to send, so an unchanged style costs no output.

### C03 SGR colours and flags are independent fields

Attributes as BitVec 64; proved bitwise.

Status: **proved**. 

* `Sgr.set_fg`: C03: replacing the foreground of any attribute with any colour is read back, and leaves background and flags alone.
* `Sgr.set_bg`: C03: the same for the background.
* `Sgr.sans_fg`: C03: removing a colour removes that colour only.
* `Sgr.sans_bg`: Taking the background off leaves none, and keeps foreground and flags.
* `Sgr.build_reads_back`: C03: an attribute written as an OR of fields reads back exactly those fields, and none where none was set.
* `Sgr.colour_value_injective`: C03: different colours have different values, so a colour read back names the colour that was set.

### C04 SGR Size is exact

Decimal length tables against AppendTo length, all attributes.

Status: **proved**. sgr_size_stray_bit shows the quantifier (defined fields only) is needed.

* `Sgr.sgr_size_exact`: C04: `Size` is exactly the encoded length, for every style.
* `Sgr.sgr_size_stray_bit`: C04 needs the bits to belong to fields: an attribute with a stray high bit encodes to `ESC [ m`, three bytes, but reports four.

### C05 Number arguments decode exactly

DecodeNumber with exact uint64/int64 arithmetic. Range errors are unreachable in the code: negation plus partial for numbers up to 2^32-1.

Status: **partial**. Exact for values up to 1<<63-1; the code wraps instead of reporting a range error (negation proved).

* `decodeNumber_exact_partial`: (part proved): a non-empty digit string with optional separator and sign is read up to its last digit, without error, whatever follows; and its value is exact whenever it is at most 2^32-1. Missing from the full property: numbers above 2^32-1 are not rejected, see `decodeNumber_never_reports_range` and the witnesses below it.
* `decodeNumber_error_iff`: : the only inputs rejected are those that end before any digit could follow: empty, a lone separator, a lone sign, or both.
* `decodeNumber_never_reports_range`: Negation of the range part of **C05**: no input whatsoever is rejected with a range error, although `DecodeNumber` documents one.
* `decodeNumber_overflow_witness`: Witness: `"4294967296"` (2^32) is returned as 4294967290 without error.
* `decodeNumber_negative_witness`: Witness: an unsigned digit string decodes to a negative number.

### C06 Points and cursor addresses round trip

Seq encoder + DecodePoint, built on C05.

Status: **proved**. 

* `point_roundtrip`: : the position sequence built for a point is the introducer, an argument and the final byte, and `DecodePoint` on that argument gives the point back and uses all of it.

### C07 Control sequence codec round trip

DecodeEscape/decodeCSI over byte lists, arbitrary suffix.

Status: **proved**. 

* `csi_roundtrip`: : a CSI sequence with any parameter and intermediate bytes decodes, whatever follows it, to the same identifier and argument, using exactly its own bytes and leaving the buffer as it is.
* `csi_roundtrip_c1`: with the C1 introducer U+009B in place of `ESC [`.

### C08 Escape and charset sequences round trip

ESC and charset sequences. Argument order and range ends disagree: negation plus partial.

Status: **partial**. Character-set selections do not round trip in the code (negation proved).

* `esc_roundtrip_partial`: (part proved): an escape sequence with a final byte from `0x30` to `0x7D` and intermediates as arguments decodes to the same identifier and argument, whatever follows, unless it has exactly one argument byte, or has none and its final byte is an upper-case one (which is a C1 control by definition). Missing: character-set sequences (one intermediate), see `charset_not_roundtrip`; and the identifier U+EF7E, see `esc_tilde_lost`.
* `charset_not_roundtrip`: Negation for **C08**: no character-set designation round trips. For every designation byte and every set byte, the sequence built for them does not decode to them, because the encoder writes the two bytes in the wrong order.
* `esc_tilde_lost`: Negation for **C08**: the decoder produces U+EF7E for `ESC ~`, but the encoder emits nothing for it.

### C09 Sequence builder keeps arguments in order

Seq with its three inline slots and the extra slices; refinement to plain concatenation.

Status: **proved**. seq_build_panics records where building panics.

* `seq_build_csi`: for control sequences: whatever the builder calls, the encoding is the introducer, all argument bytes in order, all numbers in order separated by semicolons, and the final byte.
* `seq_build_esc`: for escape sequences, which take argument bytes only.
* `seq_build_c0`: for C0 controls, which take argument bytes after the control.
* `seq_build_panics`: Two identifiers are accepted by the builder but cannot be encoded: the encoder panics on them (the malformed-sequence markers U+EF7F and U+EF80).

### C10 Sequence Size is an upper bound

Size vs AppendTo length. Fails for long integers: negation plus partial.

Status: **partial**. The bound fails for some sequences (negation proved).

* `escSize_ge`: for escapes: the size is never below the encoded length.
* `seqSize_ge_partial`: for sequences (part proved): the size is never below the encoded length as long as every number takes at most nine characters, however many arguments there are. Missing: longer numbers, see `seq_size_too_small`.
* `seq_size_too_small`: Negation for **C10**: three ten-digit numbers need more bytes than `Size`.

### C11 UTF-8 text is decoded faithfully

Go's utf8.DecodeRune/EncodeRune tables modelled; Process by well-founded recursion.

Status: **proved**. 

* `text_faithful`: for valid text: any string of plain runes is delivered rune by rune, in order, and used up completely; the same holds in front of any further bytes.
* `bytes_faithful`: for any bytes: however a byte string parses into plain runes and bad bytes, exactly those are delivered in order, each bad byte as one replacement rune, and every byte is used.
* `bytes_parse`: : every byte string without escape introducers has such a parse.

### C12 Decoder always makes progress inside bounds

Bounds of DecodeEscape for all byte lists.

Status: **proved**. decodeEscape_empty_panics shows the non-empty precondition is needed.

* `decodeEscape_bounds`: : decoding any non-empty buffer succeeds, reports no more bytes than there are, keeps the buffer's length, and a recognised escape uses at least one byte and has its argument inside the bytes it used.
* `decodeEscape_empty_panics`: The precondition is needed: an empty buffer panics.
* `processAux_fuel`: The fuel of `processAux` does not matter once it covers the bytes.
* `process_eq`: `Process` satisfies its loop equation without any bound on iterations.

### C13 Decoding preserves the input bytes

In-place rewriting modelled as a returned buffer.

Status: **proved**. 

* `decode_preserves`: : what decoding does to the buffer. Either a two-byte C1 introducer at its front is replaced by the encoding of the same control, or some bytes of an examined part `x` have been moved in front of the escape sequence they interrupted, each group keeping its order; all bytes after `x` stay in place.
* `decode_drops_only_deletes_and_cancelled`: , no byte lost: when no escape is reported, the bytes declared processed are only deletes that interrupted an escape sequence, or an escape sequence that was cancelled.

### C14 Output stream decodes to what was written

Stream codec theorem by induction over output items, on top of C01/C07/C11.

Status: **proved**. 

* `stream_decodes`: : whatever items are written in whatever order, writing succeeds, and processing the bytes delivers exactly the events the items mean, in order, and uses up every byte without changing any.

### C15 Processing is independent of write chunking

False in the code (split CSI): negation; partial for splits at item boundaries.

Status: **partial**. Proved for splits at item boundaries and inside escapes that have only intermediates so far; other splits give different events in the code (negations proved).

* `chunking_partial`: (part proved): if every write ends at an item boundary, or inside an escape sequence that has only got as far as its intermediate bytes, then writing in chunks gives the same events and the same final buffer as one write. Missing: other splits, for which it is false; see `chunking_splits_csi` and `chunking_splits_rune`.
* `chunking_splits_csi`: Negation for **C15**: a control sequence split over two writes is taken apart into text.
* `chunking_splits_rune`: Negation for **C15**: so is a multi-byte character.

### C16 Processing never wedges or hangs

False in the code (mode loop diverges, ESC wedges): negations; partial for inputs without those.

Status: **partial**. Termination of the byte loop and a full classification of leftovers proved; ESC ESC wedges the code for good (negation proved).

* `process_stops_partial`: (part proved): processing any bytes terminates (`process` is total and satisfies the loop's equation, `process_eq`), and it only leaves bytes over when they are an escape still waiting for its final byte, or are an escape that directly follows a cancelled one. Missing: progress past the leftover, false by `wedged_forever` when it starts with two ESC; true otherwise by `waiting_resumes_partial`.
* `waiting_resumes_partial`: (part proved): an escape waiting for its final byte is never stuck: as soon as any rune other than ESC, an intermediate or U+FFFD follows, some bytes are processed.
* `wedged_forever`: Negation for **C16**: two ESC bytes in a row stop all processing for good. Whatever is written afterwards, no event is ever delivered.
* `cancelled_leaves_complete_escape`: Negation for **C16**: a complete escape right after a cancelled one is left unprocessed when input stops there.
* `Screen.mode_loop_hangs`: **C16, C27**: a private mode sequence whose text makes no progress is processed for ever, on every screen: `ESC [ ? ? h`.

### C17 Buffer offset stays inside the buffer

Invariant by induction over operation lists, destination as an arbitrary writer.

Status: **proved**. 

* `buffer_offset`: : whatever the operations, none panics, the processed offset stays inside the buffer, and the spans processed by successive calls never overlap and only move forward, so no byte is processed twice.

### C18 Grid cells are addressed injectively and in range

Invariant of Grid (Resize/SubRect), arithmetic proof.

Status: **partial**. Grids made by resizing a sub-grid that does not start at the first cell overrun the arrays (negation proved).

* `Grid.cellOffset_outside`: `CellOffset` reports failure for every point outside the bounds.
* `Grid.cellOffset_inside_partial`: , for grids made by resizing whole grids, taking nested sub-grids and writing: every point in bounds has an offset, a valid index of the cell arrays. Missing: grids made by resizing a sub-grid that does not start at the first cell, for which it is false (`resize_sub_overruns`).
* `Grid.cellOffset_injective_partial`: , for the same grids: two different points never share a cell.
* `Grid.resize_sub_overruns`: **C18 fails** after resizing a sub-grid that does not start at the first cell: points in bounds get offsets beyond the arrays, and so do points in bounds get the cell of another point.

### C19 Sub-grids are confined views

Frame conditions of Clear/Set on sub-grids over a shared store.

Status: **proved**. 

* `Grid.subRect_mem`: A sub-grid whose rectangle starts inside the parent consists of exactly the points of the parent in that rectangle.
* `Grid.subRect_outside`: Any other sub-grid is the empty grid.
* `Grid.subRect_same_cells`: A sub-grid addresses its cells as the parent does, in the same store.
* `Grid.subAt_mem`: `SubAt` and `SubSize` likewise.
* `Grid.subSize_mem`: A sub-grid of a given size has the points of the grid that are within that size of its corner.
* `Grid.clear_exact`: Clearing a grid or sub-grid empties exactly the cells in its bounds.
* `Grid.clear_sub_frame`: Clearing through a sub-grid leaves every point of the parent outside the sub-grid's bounds as it was.

### C20 Resize gives the requested size

Resize histories. Width zero is sticky: negation plus partial.

Status: **partial**. A resize to zero width and non-zero height makes the width stick at zero (negation proved).

* `Grid.resize_exact_partial`: , when no earlier size had zero width and non-zero height: after any sequence of resizes, one more gives the requested size and arrays with exactly one entry per cell, and says whether the size changed. Missing: histories with a zero-width size, for which it is false (`resize_zero_width_stuck`).
* `Grid.resize_zero_width_stuck`: **C20 fails**: once resized to zero width and non-zero height, a grid is taken for a sub-grid, and no resize to a non-zero height gives it any width again.
* `Grid.resize_keeps_prefix`: Resizing a whole grid keeps the leading cells of the store.

### C21 Plain DrawGrid copies exactly the overlap

copyGrid modelled row by row; specification cell by cell.

Status: **proved**. 

* `Grid.draw_plain`: Drawing without (effective) styles copies the common upper left block cell by cell, changes no other destination cell, and never panics.

### C22 Styled DrawGrid stays inside the overlap

Loop of the styled path; false in the code: negation plus partial for equal-width cases.

Status: **partial**. Styled drawing advances neither the destination column nor the source row in its loop conditions (negations proved).

* `Grid.draw_styled_partial`: , when the source is no wider and no shorter than the destination: the styled path touches exactly the overlap, stays inside both arrays, and gives the style the two cells being drawn, though always with the point of the row's first column. Missing: other size combinations and the column of the point, for which it is false (`draw_styled_overruns`, `draw_styled_panics`, `draw_styled_wrong_point`).
* `Grid.draw_styled_overruns`: **C22 fails** for a source wider than the destination: cells beside the destination's bounds are overwritten.
* `Grid.draw_styled_panics`: **C22 fails** for a source shorter than the destination: the loop reads on beyond the source and panics.
* `Grid.draw_styled_wrong_point`: **C22 fails**: the style does not get the point being drawn, but the row's first one (this style marks the cell in column 2).

### C23 Style combination is sequential composition

Styles flattening over arbitrary style functions. No-op style clears attributes when used alone: negation plus partial.

Status: **partial**. The no-op style alone zeroes the attribute (negation proved).

* `Combo.combined_style_partial`: , for combinations with at least one real style: however nested, the combined style applies its parts in order, the no-op parts doing nothing. Missing: combinations of no-ops only, which drop the attribute (`noop_drops_attr`).
* `Combo.noop_identity`: The no-op style is an identity for combination, on either side.
* `Combo.styles_assoc`: Grouping does not matter.
* `Combo.noop_drops_attr`: **C23 fails**: the no-op style alone, and any combination of no-ops, replaces the attribute by zero.

### C24 Bitmap to braille runes is exact

Bitmap.Rune dot by dot.

Status: **partial**. Positions outside the bounds whose block reaches into the bitmap give a blank rune (negation proved).

* `Bitmap.rune_exact_partial`: , for anchors inside the bitmap: the rune shows exactly the 2 x 4 block of bits at that position, bits outside of the bitmap being empty, and there is no panic. Missing: anchors outside the bounds whose block reaches into the bitmap (`rune_outside_blank`).
* `Bitmap.rune_blank`: A position outside the bounds gives the blank braille rune.
* `Bitmap.dotOn_braille`: The dots of a braille rune are those it was made of.
* `Bitmap.runes_recover`: Reading the dots of the runes recovers the bitmap: every bit is the dot at its place in the rune of its 2 x 4 block, and there are `RuneSize` blocks.
* `Bitmap.rune_outside_blank`: **C24 fails** for positions outside the bounds whose block reaches into the bitmap: the rune is blank, the block is not.

### C25 Bitmap get/set laws

Bitmap get/set over shared data.

Status: **proved**. 

* `Bitmap.get_outside`: Reads outside the bounds are false.
* `Bitmap.get_total`: Reads never panic.
* `Bitmap.set_get`: After setting a bit inside the bounds, that bit reads back and no other bit has changed; setting one outside changes nothing.
* `Bitmap.subRect_get`: A sub-bitmap addresses the same bits at the same coordinates, and only those of the common points (if its rectangle starts inside; otherwise none).

### C26 Loading bitmaps pads to whole rows

Load padding uses the wrong modulus: negation plus partial.

Status: **partial**. A final partial row is dropped, short data panics, leading empty lines are accepted (negations proved).

* `Bitmap.load_rows_partial`: , for the whole rows: loading at least one row of data gives a bitmap with the given stride and one row for every whole row of data, whose bits are the data. Missing: a final partial row, which is dropped (`load_drops_partial_row`), and data shorter than a row, for which it panics (`load_short_panics`).
* `Bitmap.load_drops_partial_row`: **C26 fails** for data with a final partial row: the row is not in the bitmap.
* `Bitmap.load_short_panics`: **C26 fails** for data shorter than one row: loading panics.
* `Bitmap.parse_ok_partial`: Parsing, when the first line is not empty, succeeds exactly if the pattern has one or two runes and all lines have the same whole number of cells. Missing: leading empty lines, which are not counted (`parse_accepts_uneven`).
* `Bitmap.parse_load`: The parsed data is the cells of the lines, row by row; loading it gives the bitmap one reads off the lines.
* `Bitmap.parse_accepts_uneven`: **C26 fails**: leading empty lines are accepted before longer ones.

### C27 Screen emulation keeps the cursor on screen

Screen.ProcessANSI over all events; invariant by induction over the event list.

Status: **proved**. The only way not to return is a mode sequence with an empty argument (hang_only_modes, counted against C16); sub-screens let the cursor escape (negation proved).

* `Screen.whole_of_resize`: Whole screens are what `Resize` makes of the zero screen.
* `Screen.screen_event_safe`: , one event: whatever is fed to a whole screen whose cursor is unset or on the screen, the call either never returns or leaves a whole screen of the same size with the cursor on it; it never indexes outside the grid.
* `VScreen.screen_stays_safe`: , all histories: any sequence of writes of any bytes, style writes and cursor moves on a virtual screen either contains a write that never returns or leaves a whole screen of the same size whose cursor is on the screen (or still unset); nothing is ever indexed outside the grid or the buffer.
* `Screen.hang_only_modes`: Only the mode sequences can keep the emulator from returning.
* `Screen.sub_screen_cr_escapes`: On a screen that shows a part of another one, a carriage return takes the cursor out of the bounds: the whole-screen hypothesis of `screen_event_safe` is needed.

### C28 Printing changes exactly one cell

Same model, frame condition.

Status: **partial**. A print in the last cell leaves the cursor in the first column of the same row without scrolling (negation proved).

* `Screen.print_exact_partial`: except for the last cell of the screen: a printable rune is written with the current attributes under the cursor, no other cell changes, and the cursor advances to the next column, or to the start of the next row after the last column. Missing: the last cell of the last row, where the screen ought to scroll (`print_last_cell`).
* `Screen.print_last_cell`: **C28, C30 fail** at the last cell: a printable rune there returns the cursor to the start of the same row and scrolls nothing, so that following text overwrites the last row.

### C29 Erase operations clear the documented region

Same model. ED 0 is not inclusive: negation plus partial.

Status: **partial**. Erase to end of display leaves the cursor cell and the default parameter is ignored (negations proved).

* `Screen.erase_display_before`: , `ED 1`: from the first cell to the cursor, inclusive.
* `Screen.erase_display_all`: , `ED 2`: everything.
* `Screen.erase_display_after_partial`: , `ED 0`, what the code does: the cells strictly after the cursor. Missing: the cell under the cursor (`erase_display_keeps_cursor_cell`).
* `Screen.erase_display_keeps_cursor_cell`: **C29 fails** for `ED 0`, on every screen and at every position: the documented region includes the current position, but its cell is kept.
* `Screen.erase_default_ignored`: Erase without an argument, which terminals take as `0`, does nothing.
* `Screen.erase_line_after`: , `EL 0`: from the cursor to the end of its row, inclusive.
* `Screen.erase_line_before`: , `EL 1`: from the start of the cursor's row to the cursor, inclusive.
* `Screen.erase_line_all`: , `EL 2`: the cursor's whole row.

### C30 Line feed on the last row scrolls

Never scrolls: negation plus partial.

Status: **partial**. A line feed on the last row never scrolls (negation proved).

* `Screen.linefeed_down_partial`: above the last row: a line feed only moves the cursor down. Missing: the last row, where nothing scrolls (`linefeed_never_scrolls`).
* `Screen.linefeed_never_scrolls`: **C30 fails**, on every screen: a line feed on the last row changes nothing at all, so unless the last row is blank and every row equals the one above, nothing has scrolled.

### C31 Cursor motion sequences reach the target

Cursor.To against an independent terminal specification. Vertical moves emit nothing: negation plus partial.

Status: **partial**. Straight vertical moves emit nothing and moves within a row after writing its last column are one short (negations proved).

* `cursor_to_partial`: (part proved): if the tracked position is unknown, or is where the terminal's cursor is, then moving to any point on the terminal other than straight up or down emits bytes that take the terminal's cursor to exactly that point and change nothing else; the tracked position is that point. Missing: straight vertical moves, see `cursor_to_vertical_lost`.
* `cursor_to_vertical_lost`: Negation for **C31**: every straight vertical move emits nothing at all, yet the cursor is recorded as having moved, so it no longer agrees with the terminal.
* `cursor_to_past_margin_short`: Negation for **C31** with text in between: after the last column was written the tracked column is one past the margin while the terminal's cursor is still on it, so a move back in the same row lands one column short (unless it is to the first column).

### C32 Screen updates display the new contents

update/writeGridFull/writeGridDiff against the independent terminal specification (deferred wrap). Negation from C31, partial for frames without vertical hops.

Status: **partial**. Proved when no awkward cursor jump is needed and no background is in force on an erasing terminal; the rest fails (negations proved).

* `update_shows_partial`: (part proved): a terminal that shows the recorded prior screen and whose cursor agrees with the recorded one, or any terminal whatsoever if no screen of this size is recorded, shows exactly the new screen, cell for cell, after receiving the bytes of an update; its cursor is visible exactly if the new screen's is. Missing: updates in which the written cells take an awkward jump (part of `Ready`), which come out wrong (`update_wrong_cell`, `update_wrong_margin`); full redraws with a background colour set on terminals that erase with it (`update_wrong_background`). Runes are taken to be one column wide.
* `update_again_partial`: , the state for the next update: if the move to the final cursor position is not awkward either, then the terminal's cursor ends at the new screen's cursor, with its attributes, and the recorded state describes the terminal completely, so that the next update can rely on it.
* `update_wrong_cell`: Negation for **C32**: on a fresh start, a two by two screen with `a` in the first column of the first row and `b` in the second column of the second row is displayed with `b` in the first row, because the move straight down emits nothing.
* `update_wrong_margin`: Negation for **C32**: from a fresh start the three frames `xy`, `xw`, `xz` leave the terminal showing `zw`: once a frame ended by writing the last column, the next one misses its column by one in that row.
* `update_wrong_background`: Negation for **C32**: on a terminal that erases with the current background colour, a full redraw (after a resize, say) while a background colour is in force leaves that colour in cells that hold nothing, because the attributes are not reset before erasing.
* `update_wrong_cursor`: Negation for **C32** about the final cursor: from a fresh start, drawing one `a` in the first cell and asking for a visible cursor straight below the place after it leaves the terminal's cursor in the first row, while the recorded one is in the second.

### C33 After an update the recorded state equals the screen

update leaves prior equal to the screen; diff of equal grids is empty.

Status: **partial**. A screen of zero width and non-zero height is not recorded (negation proved).

* `update_records_partial`: (part proved): an update never fails, and afterwards the recorded grid has the size and the contents of the screen, whatever was recorded before and whatever runes and attributes the cells hold; updating again then writes no cell at all: the output is just that of hiding the cursor and applying the wanted cursor state. Missing: screens or recorded states that had zero width and non-zero height, see `update_forgets_zero_width`.
* `update_forgets_zero_width`: Negation for **C33**: once a screen of zero columns and two rows was recorded, an update with a two by one screen records nothing: the recorded grid stays without cells, so that every further update draws everything again.

### C34 Interrupted frame output resumes correctly

WriteTo with partial writers; recorded cursor is stale after resumption: negation plus partial.

Status: **partial**. The bytes of an interrupted frame are delivered once and in order; the record after resuming, and calls made in between, go wrong (negations proved).

* `Differ.resume_bytes_partial`: , the bytes: a frame whose flush is interrupted by would-block any number of times, wherever, is delivered exactly once and in order by the following flushes, leaving nothing behind and the virtual screen's cells as they were; and the recorded cells are then the shared ones. Full statement: the recorded state also describes the frame, and other calls may be made in between; both fail (`resume_forgets_style`, `write_eats_frame`).
* `Differ.flush_frame`: without interruption: one flush delivers the frame and records its state.
* `Differ.failed_flush`: , a failed flush: whatever was taken, everything staged is dropped and the recorded screen is empty, so that the next frame is a full redraw.
* `Differ.resume_forgets_style`: Negation for **C34**: after a frame with a bold `w` was interrupted once and resumed, the recorded attributes are those before the frame, and the next frame's plain `z` is displayed bold.
* `Differ.write_eats_frame`: Negation for **C34**: text written to the screen between an interrupted flush and its continuation makes the rest of the frame disappear: it is processed as if it had been written to the virtual screen. Here the bold `w` of the interrupted frame is never sent, not even by the next flush, though the recorded state has it.
* `Differ.failed_keeps_style`: Negation for **C34**: when a flush fails after part of the frame was accepted, the recorded attributes stay "known" although the terminal's are others, and the full redraw that follows shows plain text in bold.

### C35 Everything staged is flushed

False (style writes before a flush): negation plus partial.

Status: **partial**. Proved when nothing is left over in the buffer; a style call or an unfinished sequence before the flush drops the frame (negations proved).

* `Differ.flush_shows_partial`: , the flush itself: with nothing left over in the buffer, a flush that is accepted brings a terminal of the screen's size to the virtual screen and the user's cursor, and leaves the differ in a state from which the next flush can do the same: nothing left over, and a recorded state which the terminal shows and whose cursor agrees with the terminal's. `Ready` says when the library's cursor motions are right (C32).
* `Differ.staged_complete`: , the staging: after any sequence of complete calls nothing is left over.
* `Differ.flush_only_leftover`: Negation for **C35**: whenever anything is left over in the buffer, a flush sends just that, whatever the virtual screen holds.
* `Differ.style_drops_frame`: Negation for **C35**: writing `hi`, then setting a style, then flushing, sends the style and not the text.
* `Differ.pending_drops_frame`: Negation for **C35**: so does an escape that was not finished.
* `Differ.resize_forgets`: , resizing: whatever was staged and wherever the user's cursor is, a new size changes the virtual screen only and forgets what the terminal shows, so that the next frame is a full redraw; the same size changes nothing.

### C36 Virtual cursor tracks the terminal

Simulation between VirtualCursor and terminal specification; Apply double-counts: negation plus partial.

Status: **partial**. All sessions a size-blind tracker can follow; the rest fails (negations proved).

* `session_follow_partial`: (sessions the tracker can follow): after any such session of text, raw control sequences, styles, moves and visibility changes, the buffered bytes are those of terminal operations that take the terminal where the calls say, and the tracked cursor agrees with it about position, attributes and visibility. Missing from the full property, because it fails: `Apply` (`apply_counts_twice`), moves straight up or down and back from the margin (C31), text that wraps (`wrap_not_followed`), relative motion or line feeds from an unknown position (`newline_from_unknown`), motions by zero (`zero_motion`).
* `VCursor.apply_follow_partial`: for `Apply` as the last call: the bytes it writes take the terminal to the applied state, and the tracked cursor agrees.
* `VCursor.apply_counts_twice`: Negation for **C36**: the bytes written by `Apply` are processed again by the next write, so that a relative move counts twice. Moving to the first column, applying the third and writing `x` is tracked as column 6 while the terminal is in column 4.
* `VCursor.wrap_not_followed`: Negation for **C36**: text that wraps is tracked past the margin.
* `VCursor.newline_from_unknown`: Negation for **C36**: a new line from an unknown position is tracked as the first row, wherever the terminal is.
* `VCursor.zero_motion`: Negation for **C36**: a motion by zero, which terminals take as one, is tracked as none.

### C37 Virtual cursor flush is transactional

VirtualCursor.WriteTo outcome by outcome.

Status: **partial**. Every part holds except that after a failure both states are forgotten and hence equal (failed_flush_equal).

* `VCursor.flush_outcomes_partial`: (each outcome): a flush that succeeds delivers every buffered byte in order and makes the real state the tracked one; one that would block forgets the real state and keeps the tracked one together with exactly the bytes not yet taken; one that fails forgets both and drops the rest. Full statement: the real state equals the tracked one if and only if everything was accepted. "Only if" fails when both are forgotten (`failed_flush_equal`).
* `VCursor.flush_error`: The outcome says which of them happens: a writer that takes everything gives the first, and one that does not gives one of the others unless nothing was buffered.
* `VCursor.flush_only_if`: When the tracked position is known, a flush that leaves bytes behind does not leave the real state equal to the former tracked one: the "only if" of **C37** for such cursors.
* `VCursor.reset_restores`: , `Reset`: the tracked state is the last flushed one and nothing is buffered.
* `VCursor.reset_after`: : `Reset` after a successful flush and any calls at all is the state of that flush.
* `VCursor.flush_resumes`: : a flush interrupted by would-block any number of times, wherever, and then completed, delivers the buffered bytes exactly once and in order, and then the real state is the tracked one.
* `VCursor.failed_then_session`: , after a failed flush, or after a flush that would block and a `Reset`: nothing later relies on the former state. Whatever the terminal's cursor, style and visibility are, a session that can be followed from an unknown position does what it says.
* `VCursor.session_flush_reset`: and **C37** together: a session followed by a successful flush, with anything discarded by `Reset` afterwards, leaves a tracked cursor that agrees with the terminal that received the flushed bytes.
* `VCursor.failed_flush_equal`: Negation for **C37**: after a failed flush that took nothing the real state equals the tracked one, both being forgotten, and they differ from the state before.

### C38 Context combination order

Contexts as trees of traced actions; sharing via slice heap model for the last clause.

Status: **partial**. Ordering proved; combining two lists that share a backing array overwrites contexts when the runtime leaves spare capacity (negation proved).

* `Ctx.enter_order`: , entering: the contexts are entered in order, up to and including the first that fails, whose failure is the result; all of them when none fails.
* `Ctx.enter_all`: When none fails they are all entered, in order.
* `Ctx.exit_order`: , exiting: every context is exited, in reverse order, whatever fails, and the first error is the one returned.
* `Ctx.combine_partial`: , combining: the result stands for all the given contexts in order, whatever their nesting, and nothing built before changes. Both are limited to values which are not longer slices of the array of the first one given: see `combine_clobbers` for why.
* `Ctx.combine_clobbers`: Negation for **C38**: combining can change combinations built before. When the runtime makes room for four contexts on appending the third, as Go's does, combining three contexts first with a fourth and then with a fifth turns the first of these results into the second.
* `Ctx.exit_panic_stops`: A context whose `Exit` panics keeps the remaining ones from being exited.

### C39 Terminal contexts are always exited

RunWith/RunWithout as programs producing traces. Inner runs close early: negation plus partial.

Status: **partial**. A RunWith inside RunWithout closes early and an error inside RunWithout exits twice (negations proved).

* `Ctx.with_exits`: : running within the context. Whatever entering does, whatever the function does (including nested runs, runs without, failures and panics), and whatever exiting returns, every context is exited in reverse order after everything the function did, then those that can be closed are closed, and the terminal is no longer active. The function is run only if entering succeeded.
* `Ctx.with_result`: , the result: a failure of entering or of the function, panics included, is reported whatever exiting and closing return; without one, the first error of exiting, in the order of the calls, or else of closing.
* `Ctx.runs_bracketed_partial`: , nesting: when context methods succeed and functions run without the context return no error, then throughout any program, however its runs are nested and whatever its functions return or panic with, no context is entered while entered or exited while not; none is closed while entered; everything directly under a `RunWith` happens with all the contexts entered, and everything else with none of them.
* `Ctx.closes_last_partial`: , `Close`: a run closes contexts only at its very end, when everything else has happened, if its function uses no `RunWithout`, whatever fails; or if contexts do not fail and functions run without the context return no error and start no run within it. Otherwise not: see `close_inside_without`.
* `Ctx.close_inside_without`: Negation for **C39**: a run nested in a run without the context closes the context long before the outermost run ends, and the context is entered again after that.
* `Ctx.exit_twice`: A context is exited twice in a row when a function run without it fails: why `runs_bracketed_partial` asks for these functions to return no error.
* `Ctx.add_context_under`: Contexts can only be added outside of any run: under one, adding panics and changes nothing.

### C40 Mode sequences undo in reverse order

Mode as two byte lists; induction over additions.

Status: **proved**. 

* `ModeBuf.mode_strings`: : after any sequence of additions to a new mode, entering writes what was added to the set string in order, and exiting writes what was added to the reset string in reverse order; whatever capacities the runtime chooses and however the sequences' bytes are appended, the two strings never overwrite each other.
* `ModeBuf.mode_no_file`: Without an output file nothing is written.
* `modes_added`: for modes: after adding any modes, however their bytes are appended, entering sets them in order and exiting resets them in reverse order.

### C41 Terminal attributes are restored

Termios as bit vectors; invariant.

Status: **proved**. The last two record what happens when system calls fail, outside the property.

* `Tty.attr_between`: **C41.** Entering on a terminal with any attributes and then making any sequence of successful changes, the terminal always has its original attributes as configured last.
* `Tty.exit_restores`: **C41.** After entering on any terminal, and any sequence of changes, failing ones included, exiting leaves exactly the attributes found on entering, and the attributes forget the file.
* `Tty.no_file`: Without an output file nothing touches the terminal.
* `Tty.failed_raw_not_retried`: A failed change to raw mode is remembered as made: asking again reports success, and the terminal never becomes raw.
* `Tty.failed_enter_zeroes`: When the attributes cannot be read on entering, exiting sets all attributes to zero.

### C42 Input file flags are restored

Flag sets as bit vectors; blocking cannot be restored: negation plus partial.

Status: **partial**. Flags are restored except for files Go found in non-blocking mode; blocking reads never come back after ReadAny (negations proved).

* `Inp.flags_restored_partial`: , first part: after entering, any operations with any outcomes, and leaving, the file has exactly the flags it had before — unless Go's `os.File` found it in non-blocking mode when the process began (`polled`).
* `Inp.polled_not_restored`: Negation for **C42**: a file in non-blocking mode from the start is left in blocking mode, whatever is done in between.
* `Inp.failed_enter_clears`: Negation: an input whose flags were read but could not be set on entering sets all settable flags to zero on leaving, here `O_APPEND`.
* `Inp.read_more_waits_partial`: While the file is not in non-blocking mode, reading more waits until there is something, and takes it.
* `Inp.read_more_never_waits`: Negation for **C42**, second part: once the file is in non-blocking mode, as it is after any successful `ReadAny`, no operation makes reads wait again: `ReadMore`, told to block, returns at once with no byte and "would block" when there is nothing to read.

### C43 Input decoding does not depend on read boundaries

Input.Decode over chunked reads.

Status: **partial**. Proved for cuts between items and anywhere inside control sequences and strings after the introducer; cuts inside an introducer, a text character or an ESC sequence change the events (negations proved).

* `Inp.reads_boundaries_partial`: (part proved): let a terminal send any items, cut into reads anywhere — between items and anywhere inside control sequences and control strings, even inside a character of a control string — except between the two bytes of an introducer, inside a character of the text, and inside an ESC sequence; there a cut is fine only after an ESC that just fills the reader's room. Then decoding all there is after each read gives exactly the events the items mean, as if there had been one read. Missing: the other cuts, for which it is false: see `reads_split_intro`, `reads_split_rune` and `reads_split_alt`.
* `Inp.reads_same_partial`: (part proved): two ways to cut the same input at such places give the same events, and leave the input in the same state.
* `Inp.reads_split_intro`: Negation for **C43**: an arrow key cut after its ESC is read as three keys, unless the ESC fills the room there was.
* `Inp.reads_split_rune`: Negation for **C43**: a character cut in two is read as two invalid ones.
* `Inp.reads_split_alt`: Negation for **C43**: so is a sequence of ESC, an intermediate byte and a final byte.

### C44 Input recordings replay faithfully

Replay parser; spurious NUL and misplaced fields: negation plus partial.

Status: **partial**. Proved for sessions of plain input and messages without errors, up to a zero byte put in for every read; errors come back as messages, and strings, some Alt keys and unfinished input are lost or changed (negations proved).

* `Rpl.push_spec`: Pushing ends the frame.
* `Rpl.plain_bytes`: A plain item of input is recorded as the bytes it was read from.
* `Rpl.steps_spec`: The frames of a recording that is read, as events.
* `Rpl.loop_data`: A read that succeeds: all that is there is decoded, a zero is taken as input, and reading goes on.
* `Rpl.loop_spec`: Reading a recording in chunks, however they arrive, is reading all of its items in one go.
* `Rpl.replay_partial`: : a recording without errors is read as the frames that are in it, with a zero byte for every read: when the reads end between things. (What is missing: there should be no zero bytes, the reads may end anywhere, errors should come back, and all input should come back as it was.)
* `Rpl.session_partial`: : a session of plain input recorded and read back in one read comes back with all its times and bytes, after one frame too many, of a zero byte and no time.
* `Rpl.zero_bytes`: Negation for **C44**: a zero byte is put in wherever a read ends, even within a frame.
* `Rpl.error_as_message`: Negation for **C44**: an error comes back as a message, and the bytes read with it are in another frame, without a time.
* `Rpl.string_lost`: Negation for **C44**: the body of a control string (here OSC "0;x" ST) is lost.
* `Rpl.alt_changed`: Negation for **C44**: Alt-O comes back as other bytes, and Alt-~ not at all.
* `Rpl.private_changed`: Negation for **C44**: a private use character of those that stand for escapes comes back as an escape.
* `Rpl.apc_taken`: Negation for **C44**: an APC string in the input is taken for a message, and what follows loses its time.
* `Rpl.unfinished_lost`: Negation for **C44**: what is unfinished at the end of the recording is lost.

### C45 Output stalls are bounded and flags restored

Flush state machine with arbitrary writer.

Status: **partial**. Bytes and stall records are proved in full; the mode is not restored for files Go found in non-blocking mode (negation proved).

* `Outp.flush_loses_nothing`: : a flush writes a prefix of the bytes to the file and leaves exactly the rest to be written, `Flushed` counts the written ones, and if no error is returned nothing is left. This holds for all outcomes of the system calls.
* `Outp.flush_restores_partial`: : unless the last `fcntl` call fails, and unless Go's `os.File` was made in non-blocking mode, a flush leaves the file flags as it found them, whatever else happens.
* `Outp.flush_polled_blocks`: Negation for **C45**: on a file made in non-blocking mode a stalled flush leaves the file in blocking mode.
* `Outp.flush_hides_wouldblock`: A write that would block never shows: if writes to a blocking file do not report "would block", neither does a flush.
* `Outp.stalls_bounded`: : after any operations there are never more stall records than asked for last, and the room for them is exactly as asked for.
* `Outp.stalls_recorded`: : the records are the durations of the first stalls, as many as there is room for; a flush that does not stall is not recorded.
* `Outp.stalls_reads`: : looking at the records returns all of them, and makes room for new ones if asked for or if there was none left; otherwise it leaves them.
* `Outp.stalls_room`: : so after looking at the records there is always room: the next stall is recorded whatever happened before.

### C46 Signals never block the sender

Channel of capacity one as a state machine.

Status: **partial**. Proved for a signal that has been opened and for a lone sender; several senders on an unopened signal, or Close during the first send, can block for ever (negations proved).

* `Sig.send_never_blocks_partial`: : once the signal is open, whatever the goroutines, receivers and the runtime do, a goroutine in the middle of sending can always make a step, and each brings it nearer to its end: three steps for each message.
* `Sig.open_opened`: `Open` makes or keeps the channel.
* `Sig.burst_delivered`: : of the messages offered to the channel from a state in which it is empty on, the first is received first, or waits first in line; and what is received or waits is made of the offered messages, in order and each at most once.
* `Sig.wakeup`: : a signal is never missed altogether: when a message has been offered since the last receive, the next receive gets one.
* `Sig.lone_send_never_blocks`: A lone goroutine can send to a signal never opened: it makes the channel and its send finds room (the runtime delivers only to channels given to `signal.Notify` by `Open`).
* `Sig.unopened_race_blocks`: Negation for **C46**: when two goroutines send to a signal that has not been opened, one may wait for room in the channel, and if nobody receives it waits for ever.
* `Sig.close_race_blocks`: Negation for **C46**: a signal closed while the first message is being sent makes the sender wait for ever.
* `Sig.unbuffered_loses`: Negation for **C46** with a channel of the user's own: without room nothing is ever delivered to a receiver that does not wait.

### C47 Stopping a background worker always returns

Two-process transition system; reachable deadlock: negation plus partial.

Status: **partial**. Stop returns when the worker waits and nothing is pending; otherwise there are schedules in which Stop hangs for ever (negations proved).

* `Bg.stop_returns_partial`: : when `Stop` is called while the worker waits and no work is pending, then whatever the schedule and whether or not the last work fails, at most seven more steps follow, and the goroutines only come to rest once `Stop` has returned.
* `Bg.stop_hangs`: Negation for **C47**: if `Stop` gets as far as clearing `core.w` before the worker comes to receive again (having just started, or being at work), both wait for ever: the worker on a nil channel, `Stop` for the worker.
* `Bg.stop_hangs_at_start`: Negation for **C47**: a schedule from the start of a worker after which `Stop` never returns; there is no work and nothing fails.
* `Bg.stop_hangs_after_notify`: Negation for **C47**: the same after one notification, with the worker waiting when it came: `Stop` right after `Notify` hangs whenever it is quicker than the worker.
* `Bg.stop_no_file`: After the file has been taken away (`SetFile(nil)`), `Stop` returns at once, and leaves the worker as it is.

### C48 Line editor implements text editing

Refinement to text-with-cursor. Backspace in mid-line removes the wrong character: negation plus partial.

Status: **partial**. Proved for all sessions without a backspace in the middle of the text; there the code removes the character at the cursor instead of the one before it (negation proved).

* `Edl.insert_holds`: , typing: a typed character is inserted at the cursor, wherever it is and whatever the text.
* `Edl.delete_holds`: Backspace as it is.
* `Edl.backspace_holds_partial`: , backspace at the end of the text (or the start) removes the character before the cursor.
* `Edl.arrow_holds`: , arrows: the cursor moves within the text, which stays as it is.
* `Edl.handle_holds_partial`: : every event does to the line what its key does to the text, except that a backspace in the middle of the text does something else.
* `Edl.session_holds_partial`: , whole sessions: after any events, in any number and mixture, the line holds the text and cursor that the same keys give — for sessions without a backspace in the middle of the text.
* `Edl.update_holds_partial`: , a frame: an update of an active line does the keys of its events to the text, and drawing does not change it.
* `Edl.reset_holds`: The reset line is the empty text.
* `Edl.backspace_middle`: Negation for **C48**: in "aXb" with the cursor after "a", backspace does not remove the "a" but the "X".

### C49 Event queries consume exactly the matching events

Queue model, frame conditions.

Status: **partial**. All queries mark and count exactly, except that a rune asked for twice is counted twice; decoding appends one entry per item for whole items, and cancelled sequences or private use characters are misread (negations proved).

* `Evq.countRune_strikes`: : a query for runes marks exactly the entries of these runes and leaves all others, and counts each as often as it is asked for.
* `Evq.countRune_exact_partial`: : if no rune is asked for twice, the result is the exact number of matching entries.
* `Evq.countRune_twice`: Negation for **C49**: asking twice for the same rune counts one entry twice.
* `Evq.hasTerminal_strikes`: : testing for a rune that ends things finds it just if it is there, and marks it and everything after it, and nothing before.
* `Evq.countPressesIn_exact`: : counting presses marks exactly the presses of that button in the box, and returns their number.
* `Evq.anyPressesOutside_iff`: : whether there is any press outside the box.
* `Evq.totalScrollIn_exact`: : the total scroll is the number of turns downward less those upward, and exactly these entries are marked.
* `Evq.lastMouse_exact`: : the last mouse entry is found, and just all mouse entries are marked if they are to be consumed.
* `Evq.totalCursorMovement_exact`: : the total movement is the sum of all displacements, and exactly the movements are marked.
* `Evq.isEmpty_iff`: : the queue is empty when nothing is left to handle.
* `Evq.decodeBytes_items`: : decoding bytes appends one entry for each thing the terminal sent, in order, and leaves the entries already there.
* `Evq.decodeInput_items`: : decoding an input appends one entry for each thing the terminal sent, if what has been read is made of whole things.
* `Evq.entry_report`: : every mouse report becomes a mouse entry with its state and point, unless it is a press of the left button at a point outside the screen.
* `Evq.entry_other`: : other things become runes or escapes.
* `Evq.private_rune_is_escape`: Negation for **C49**: a typed character from the private use area is taken for an escape sequence, here for the "cursor up" key.
* `Evq.cancelled_adds`: Negation for **C49**: a cancelled escape sequence at the end adds an entry for a character never sent, and one before an escape sequence makes that fall apart.

### C50 Log sink indexes lines exactly

Index invariant; panics after unterminated write: negation plus partial.

Status: **partial**. Proved for all histories of whole-line writes and partial reads; after any write not ending in a newline every later write panics (negation proved).

* `Logs.write_exact`: : writing whole lines keeps the index exact, appends the bytes and does not panic.
* `Logs.read_exact`: : a read of any size keeps the index exact, and returns the first bytes.
* `Logs.calls_exact_partial`: : after any sequence of writes of whole lines and partial reads, in which nothing panics, the recorded line ends are exactly the newline positions of the buffered text. (The `log` package only writes whole lines.)
* `Logs.unfinished_implicit`: Negation for **C50**: after a write that does not end in a newline, the index is not that of the newlines, and ...
* `Logs.implicit_read`: ... whatever is read then, it stays so, and ...
* `Logs.implicit_panics`: ... every further write panics.
* `Logs.unfinished_panics`: A concrete history that panics: "a" and, after a read of everything, "b".

### C51 Log view window stays in range

Integer model with the loops of viewWindow.

Status: **partial**. Proved for all sessions in which the log only grows; reading lines out of the log while scrolled panics (negation proved).

* `Lgv.scroll_within`: : whatever the scrolling, the position is afterwards at an existing line or following the end.
* `Lgv.scroll_moves`: Scrolling from an existing line goes as far as asked, unless the top or the end is there.
* `Lgv.scroll_follows`: : scrolling to the last line or beyond follows the end again; and at any other line the view is kept from following the end.
* `Lgv.follow_shows_last`: : so after that new lines are shown as they come.
* `Lgv.window_within`: : the window is within the existing lines, is as long as the view (or the log, if shorter), holds the line the view is at, or the last one if it follows the end; and the view stays at an existing line.
* `Lgv.shown_lines`: : for a window within the log, the slices taken of the log are in bounds, and are the lines of the window.
* `Lgv.update_shows`: : a frame of the log viewer on a log of whole lines, whatever the presses and the scrolling, does not panic, and shows consecutive lines of the log, as many as the view is high (or as there are).
* `Lgv.run_shows_partial`: : whatever scrolling is requested, and whatever is logged in between, no frame panics, and every frame shows consecutive existing lines, not more than the view is high; as long as nothing is read out of the log.
* `Lgv.read_out_panics`: Negation for **C51**: after lines have been read out of the log, a view that was scrolled up may be at a line that is not there any more, and the frame panics.
* `Lgv.negative_view_panics`: Negation for **C51**: with a negative number of lines (the field is exported) a frame panics.

### C52 Sized sections read back

Write/seek model of the section writer; round trip.

Status: **partial**. Proved for one or more writes and a first read that gets the whole size; a section never written to has no size, a short first read gives a wrong size, and a cut section is accepted (negations proved).

* `Szd.section_written`: , writing: a section written in chunks puts the size and the bytes at the position of the file, changes nothing else, and leaves the position after them.
* `Szd.readLimited_spec`: Reading with a limit gets all that is there, up to the limit, however much comes at once.
* `Szd.section_reads_partial`: : a section written in any (one or more) chunks, whatever is written after it, reads back as the bytes written, leaving the reader at what follows; when the eight bytes of the size come with the first read, and however the others come.
* `Szd.no_chunks_no_section`: Negation for **C52**: nothing at all is written for a section of no chunks, and what follows is taken for its size.
* `Szd.short_read_breaks`: Negation for **C52**: if the first read does not get all eight bytes (as `Read` is allowed to) the size is wrong.
* `Szd.cut_section_accepted`: Negation for **C52**: a section cut short is read without an error.

### C53 Compiled terminfo strings are read correctly

Reader over byte lists with uint16 offsets; absent capabilities wrong: negation plus partial.

Status: **partial**. Proved for entries with offsets for all capabilities asked for, with no absent ones unless the last string is in the first 256 bytes; otherwise absent capabilities read as junk (negations proved).

* `Tin.readNullString_spec`: A string is read up to its NUL, however much comes at once.
* `Tin.read_present`: A string that is there.
* `Tin.read_absent`: A string that is absent: it is read from the byte before the table.
* `Tin.readFrom_partial`: : reading a compiled entry gives the strings of all keys and functions; when the entry has offsets for all of them, and, if one is absent, the last string of all is within the first 256 bytes of the table. However much reads get at once.
* `Tin.absent_not_empty`: Negation for **C53**: if the last string of the table has an offset of 256 or more (as in most entries), absent strings are not read as empty, but as the first string of the table with a control character before it.
* `Tin.absent_witness`: Concrete entry with an absent string, for which something is read nevertheless.
* `Tin.few_strings`: Negation for **C53**: an entry with fewer strings than are looked for (most entries leave out the last ones if they are absent) is not read at all, or something is read from the table.
* `Tin.few_strings_junk`: Negation for **C53**, for an entry of terminal proportions: with one string only, all keys are read from the middle of the table.

### C54 Palette lookup returns a nearest colour

Palette.Index as a fold; metric is quantised: negation plus partial.

Status: **partial**. The result is within 3 of the least squared distance, and exact for palette members with no near neighbour before them; the early exit can return a neighbour of an exact match (negation proved).

* `Col.index_spec`: The colour chosen is the first of those closest to the given one.
* `Col.index_nearest_partial`: : the lookup is in range and returns an entry whose squared distance to the colour is at most 3 more than that of any entry.
* `Col.index_exact_partial`: : a colour that is in the palette is found, if no entry is a near miss of it (off by one in some components and the same in the others): what is returned is an entry of the same RGB value.
* `Col.standard_exact`: : a colour of the 256, given as a 24-bit colour or by its number, is found exactly in the standard palette.
* `Col.convert_mem`: : conversion to a palette gives one of its colours.
* `Col.near_miss_returned`: Negation for **C54**: a palette with the very colour asked for, of which another one, not equal to it, is returned.

### C55 Rectangle algebra

Integer rectangles; decision by linear arithmetic.

Status: **proved**. 

* `Geom.empty_iff`: : `Empty` holds exactly for rectangles without points.
* `Geom.mem_intersect`: : the intersection contains exactly the common points.
* `Geom.subset_union`: : the union contains both operands.
* `Geom.union_smallest`: : the union is the smallest rectangle that contains both.
* `Geom.rectIn_iff`: : `In` is inclusion of the sets of points.
* `Geom.rectEq_iff`: : `Eq` is equality of the sets of points.
* `Geom.overlaps_iff`: : `Overlaps` holds exactly when there is a common point.
* `Geom.mem_inset`: : insetting keeps exactly the points at distance `n` from all edges (for negative `n`, grows the rectangle).
* `Geom.mem_rectAdd`: : translation moves every point.
* `Geom.mem_rectSub`: : a rectangle moved back has the points that are moved into it.
* `Geom.canon_wf`: : the canonical version is well formed, has the same corners up to order, and a well-formed rectangle is its own canonical version.
* `Geom.canon_of_wf`: : a well-formed rectangle is its own canonical version.
* `Geom.rect_wf`: Constructed rectangles are well formed and valid; the constructor rejects exactly the invalid coordinates.

### C56 Image and terminal coordinates convert both ways

Same; RectFromImage returns the zero rectangle: negation plus partial.

Status: **partial**. RectFromImage always returns the zero rectangle (negation proved).

* `Geom.point_to_ansi_and_back`: for points: image points with non-negative coordinates are exactly the convertible ones, the result is valid, and converting back is the identity.
* `Geom.point_to_image_and_back`: for points, the other way round.
* `Geom.rect_to_image_mem_partial`: for rectangles (part proved): converting a well-formed terminal rectangle to image space keeps exactly its points, converted. Missing: the way back, see `rectFromImage_always_zero`.
* `Geom.rectFromImage_always_zero`: Negation for **C56**: converting any image rectangle gives the zero rectangle, which is not even valid, so no terminal rectangle ever comes back.
* `Geom.rect_image_not_roundtrip`: Negation: converting a rectangle to an image rectangle and back can change it.

### C57 Mouse reports decode exactly

Decoder on C05; finite table for button codes.

Status: **partial**. Codes from 128 on, the wheel's fourth direction and some malformed reports are misread (negations proved).

* `Mouse.decode_report`: : every report of a code up to 255 at a point up to 2^32-1 in each direction decodes without error to that point, and to the code with the release bit added for a release.
* `Mouse.report_features_partial`: : the state decoded from any report of a button or of the upright wheel has exactly the reported button, modifiers, motion and release; it is a press just if it is neither a motion nor a release, and a drag just if it is a motion with a button held.
* `Mouse.wheel_right_is_right`: Negation for **C57**: a report of the wheel's fourth direction is taken for one of the right button, whatever the modifiers.
* `Mouse.extra_button_is_release`: Negation for **C57**: pressing one of the buttons xterm reports with codes from 128 on looks like a release, and never like a press.
* `Mouse.accepts_only_partial`: : a report accepted without error consists of `<` and three numbers, the first between 0 and 255, and nothing else; every other argument beginning with `<` is rejected. Each number may lack its digits or have a sign, or the first a separator (which the documentation does not allow): see `accepts_odd`.
* `Mouse.rejects_byte`: In particular any byte other than digits, separators and signs is rejected.
* `Mouse.accepts_odd`: Negation for **C57**: the malformed report `<;-0;;+5` is accepted, and so is one whose column is too large to be read.
* `Mouse.not_a_report`: Sequences that are not extended mouse reports are not touched.

### C58 Mode set and reset sequences are exact

Built on C05/C07.

Status: **partial**. Mode numbers that do not fit are read back as other numbers (negation proved).

* `mode_bytes`: , the bytes, for every mode value: any 64 bit mode is a number below `2^63`, private or not.
* `mode_cover`: Every mode value is one of these.
* `mode_roundtrip_partial`: , reading it back: the sequence is one event, a set or reset mode function, whose argument, after the private marker, decodes to the mode. The number must fit the decoder's 32 bits: see `mode_too_big`.
* `mode_too_big`: Negation for **C58**: a mode number of 33 bits is emitted in full and read back, without an error, as another one.

### C59 Platform configuration merging keeps the first setting

Record model; one option is never merged: negation plus partial.

Status: **partial**. All fields merge with the first set one winning, except StartTiming, which is dropped (negation proved).

* `Cfg.merge_keeps_partial`: : what is set is kept, what is unset is taken from the other (the timing flag `StartTiming` is missing here, see `start_timing_dropped`).
* `Cfg.merge_assoc`: : merging is associative.
* `Cfg.new_first`: : the configuration of a new platform has for each option the first value that is set, the command line coming first, and then the options in order.
* `Cfg.start_timing_dropped`: Negation for **C59**: the flag `StartTiming` (`-platform.timing`) of another configuration is never taken over.
* `Cfg.start_timing_never`: So no platform ever has it.

### C60 Grid equality means same size and same contents

Grid.Eq row by row over the grids of Grid.lean.

Status: **partial**. Eq compares the stores only, not the bounds (negations proved).

* `Grid.eq_iff_partial`: , for grids of equal size: `Eq` holds exactly when all cells agree, with zero runes read as the given one. Missing: grids of different sizes, for which it is false (`eq_ignores_size`).
* `Grid.eq_ignores_size`: **C60 fails** for grids of different sizes with equally many cells.
* `Grid.eq_ignores_bounds`: **C60 fails** for sub-grids too: two views of one store are equal whatever their bounds, and equal views of different stores are not.

### C61 Transparency styles keep exactly what is missing

Styles as functions of cell; pointwise.

Status: **partial**. TransparentAttrBGFG is not the combination of the two single styles (negation proved).

* `Style.transparentRunes_spec`: A rune is kept exactly where nothing is drawn, attributes never change.
* `Style.transparentAttr_spec`: A transparent attribute style keeps all bits outside of its mask; within the mask it takes the drawn bits if there are any, otherwise the prior ones.
* `Style.transparentBGFG_partial`: , where the combined style does act as the two single ones: when the drawn cell has both kinds of attribute, or neither. Missing: cells with only one of them (`transparentBGFG_not_both`).
* `Style.transparentBGFG_not_both`: **C61 fails**: the combined style is not the two single ones combined; drawing a cell with only a background over a bold one loses the boldness.
* `Style.attr_spec`: : an `AttrStyle` gives its attribute to every cell that has a rune, and leaves cells without one alone, so that they still count as unstyled.
* `Style.attr_then_default`: : an `AttrStyle` draws nothing where nothing is drawn, even with a default rune for styled cells after it.
* `Style.zero_then_default`: : a `ZeroRuneStyle` takes away the rune it is for together with its attribute, so that the cell is not drawn, even with a default rune for styled cells after it; other cells are as without it.
* `Style.fill_spec`: : a `FillRuneStyle` leaves no cell without a rune; a `DefaultRuneStyle` leaves only unstyled ones without. Neither changes an attribute, or a rune that is there.

### C62 Drawing a bitmap places one rune per block

DrawBitmap loop on top of Bitmap.Rune (C24) and grid writes (C19).

Status: **proved**. 

* `Grid.draw_bitmap`: Drawing a bitmap draws, in each destination cell of the common block of `RuneSize` cells, the braille rune of the corresponding 2 x 4 bits through the styles; every other cell is unchanged, and it never panics.
* `Grid.draw_bitmap_plain`: Without styles every drawn cell shows exactly its braille rune.

### C63 Attribute bytes mean the attribute on a terminal

Bytes of AppendTo/Diff/MergeSGR read by the terminal specification.

Status: **proved**. sgr_reset_sends_nul records that the separate SGRReset constant is malformed.

* `sgr_bytes_meaning`: C63: the bytes of any style's attribute are one SGR control sequence; a terminal reading them puts the style over its current rendition (over the default one if the style says to clear) and changes nothing else.
* `sgr_diff_meaning`: C63: the bytes of the difference of two attributes take a terminal showing the first to one showing the second (nothing is sent if the difference is empty).
* `merge_sgr_shows`: C63: after merging an attribute into a tracked cursor and sending the bytes, the terminal shows that attribute and the cursor knows it, whether or not the cursor knew the terminal's rendition before.
* `sgr_reset_sends_nul`: C63, the one exception: the documented reset sequence `SGRReset` is not `ESC [ 0 m` but has a NUL byte as its parameter (`ansi/sgr.go`: `SGR.With(SGRCodeClear)`, whose code is the number zero, not the digit).

### C64 Reading input loses no byte

ReadMore/ReadAny with file behaviour as an arbitrary list of outcomes.

Status: **proved**. 

* `Inp.read_more_keeps`: for `ReadMore`: it takes some of what the terminal offers, appends exactly those bytes to the buffer, in order, and returns how many there are. If there are any, the error is nil.
* `Inp.read_any_keeps`: for `ReadAny`: the same.
* `Inp.read_any_all`: for `ReadAny`: on a file it takes all there is without waiting: all bytes up to the point where there is nothing for the time being, at the end or at an error.

### C65 Enter and Escape end the editing

EditLine.Update over arbitrary batches of events.

Status: **partial**. Proved when Enter or Escape is the last event of its frame; keys after it in the same frame still change the text and the outcome (negation proved).

* `Edl.ended_stays`: : a line that is done or cancelled stays as it is, and the events too.
* `Edl.handle_state`: What the event does to the state.
* `Edl.enter_ends_partial`: : a session with neither key leaves the line active, and one that ends in Enter or Escape ends it, with the text as edited by the keys before.
* `Edl.typed_after_enter`: Negation for **C65**: keys typed after Enter, but read in the same frame, still change the submitted text, and Escape after Enter cancels it.

### C66 The edit line is drawn in its box with the cursor in view

The drawing half of EditLine.Update, integer arithmetic of the scroll offset.

Status: **partial**. The window and the cells drawn are exact for a non-empty text with a free column after it; with a full box the cursor and a blank are outside the box, and an empty line can blank a foreign cell (negations proved).

* `Screen.print_text`: Printing a text that does not reach the last column: it stands in consecutive cells from the cursor on, in the current style, all other cells are as before, and the cursor is after it.
* `Edl.window_ok`: : the shown part of the text. In a box of `w ≥ 1` columns at most `w` characters are shown, all of them if they fit; the cursor is never left of the part shown, and on a character of it unless it is at the end of the text, when it is right after the part shown or (then one column may be missing) within the box.
* `Edl.shown_text`: The bytes shown are those of the characters of the window.
* `Edl.draw_shows_partial`: : a line drawn on a screen, with its box on the screen, something to show, and at least one column right of what is shown. The characters of the window stand in the box from its left edge on; a blank follows them if the cursor is at their end; every other cell of the screen is as before; the user cursor is visible in the row of the box, as many columns from its edge as there are characters of the window before the cursor.
* `Edl.full_line_leaves_box`: Negation for **C66**: when the text fills its box and the cursor is at the end, the cursor is right of the box, and a blank is written there over what belongs to others.
* `Edl.long_line_flickers`: The same for a text longer than the box: in one frame the cursor is in the box, in the next, with nothing typed, it is right of it.
* `Edl.empty_line_blanks`: Negation for **C66**: drawing an empty line writes a blank wherever the output cursor happens to be, if that is in the first column of the box.
* `Edl.wide_line_blanks_next_row`: Negation for **C66**: a text that fills a box as wide as the screen, with the cursor at its start, has a blank written into the next row.

### C67 Log lines reach the log file

Log sink with its background writer as a transition system.

Status: **partial**. Proved for all schedules in which no flush fails and nothing is logged during a flush; otherwise lines are lost (negations proved).

* `Logs.log_delivered_partial`: : on every schedule in which no flush fails and nothing is logged while the worker is inside a flush, what has been logged is, in order, what is in the file and then what is still deferred; once `Stop` has returned, with no error, the file holds all that was logged before it and all that is logged afterwards.
* `Logs.lost_during_flush`: Negation for **C67**: a line logged while the worker is writing is gone: it is neither in the file nor deferred any more.
* `Logs.lost_after_error`: Negation for **C67**: after one failed write, reported by `Notify`, the worker is dead and `Stop` returns no error; the line is not in the file, and whatever is logged from then on never gets there, though the file may be fine again.

### C68 Truncated text fits its width

writeTruncated over rune lists.

Status: **partial**. Proved for widths of at least one; for width zero an ellipsis is still written (negation proved).

* `Lgv.truncated_fits`: : a text of valid runes is written whole if it fits the width; otherwise as many runes as fit before an ellipsis.
* `Lgv.fit_length`: : so it is never wider than a width of at least one.
* `Lgv.no_room_ellipsis`: Negation for **C68**: in no cells, there is still the ellipsis.

### C69 Colour conversions keep the RGB value

Colour word as BitVec 32; table as a list of 256 entries, checked entry by entry.

Status: **proved**. 

* `Col.to24_same`: : making a colour 24-bit keeps its RGB value; the result is a 24-bit colour, and doing so again changes nothing.
* `Col.rgba_same`: : a colour given as `color.Color` values comes back the same, as a 24-bit colour.
* `Col.clip_big`: : clipping values beyond the range makes them the brightest.
* `Col.table_standard`: : the table of definitions is that of the cube and the grays.
* `Col.canon_same`: : the canonical alias of a colour has the same RGB value.
* `Col.canon_alias`: : a 24-bit colour that is one of the 256 becomes one of these; ...
* `Col.canon_other`: ... any other colour is left as it is.
* `Col.theme_convert`: : a theme keeps 24-bit colours and replaces its own; the others become their 8-bit number.
* `Col.canon_not_inverse`: The way to 24 bits and back need not return the same colour number: black becomes the first colour of the cube, which is black, too.

### C70 Combined colour models apply each in turn

Colour models as a slice heap, as contexts in C38.

Status: **partial**. Conversion in turn proved for all lists; combining can overwrite an earlier combination sharing its backing array (negation proved).

* `Col.models_partial`: : a combination of colour models applies each in turn, whatever the nesting; and combining does not change other models; both for models which are not longer slices of the array of the first one.
* `Col.models_clobbered`: Negation for **C70**: combining three models first with a fourth and then with a fifth changes the first of these results (when the runtime makes room for four on appending the third, as Go's does).

### C71 Terminfo entries are looked for where they should be

File system as a function from paths; cache as an association list.

Status: **partial**. Search path, order, caching and builtin choice proved; an empty name panics, and an unreadable file hides the builtin entry (negations proved).

* `Tin.search_path`: , the search path: only the directory `TERMINFO` if it is set; else the one in the user's home, those of `TERMINFO_DIRS` in their order with the default one for an empty one, and the default one at the end if it is not there.
* `Tin.search_path_some`: There is always somewhere to search.
* `Tin.load_again`: , loading: what was loaded before is returned again.
* `Tin.load_first_partial`: , loading: the first file there is in the order of the search path is read, and the builtin entries are used if there is none. (What is missing: they should be used as well if the file is not readable, and for no name there should be an error.)
* `Tin.builtin_named`: The builtin entries: by name, and else by part of the name.
* `Tin.contains_iff`: `contains` says whether the one text occurs within the other.
* `Tin.builtin_compat`: , the builtin entries: another name gets the first compatible one that is a part of it, and an error if there is none.
* `Tin.load_empty_panics`: Negation for **C71**: for no name there is a panic, not an error.
* `Tin.load_unreadable`: Negation for **C71**: a file that cannot be read is an error, even if there is a builtin entry.

### C72 Recorded screen sizes are read back

Size fields written and read back, byte level.

Status: **proved**. Sizes below 2^32.

* `Rpl.size_reads`: : a recorded size is a message, and it reads back as the size.
* `Rpl.size_other`: Other messages do not change the size.
* `Rpl.size_bad`: : a size message that is not a size does not change the size, either.
* `Rpl.size_junk`: What follows a number is not looked at, so that other messages are taken for sizes.

### C73 A replay shows the recorded frames in order

The replay player as a state machine over user keys and recorded frames.

Status: **partial**. Recorded frames with a time are shown in order under all user keys; while paused the client gets the live keys, and frames without a time are dropped (negations proved).

* `Rpl.advance_spec`: Advancing shows the next entry of the timeline, with the size in effect there.
* `Rpl.play_all`: : without keys for the replay, the client is run once for every recorded frame with a time, in order, with its time and bytes and the size of that time; then the replay is done.
* `Rpl.play_prefix`: : whatever the user presses, the recorded input the client gets is the first frames of the recording, in order and none of them twice.
* `Rpl.paused_stays`: : while it is paused nothing is replayed, until a space or a dot.
* `Rpl.stop_stops`: : a Ctrl-C while there are frames left stops the replay, without an error and with nothing replayed; with none left the replay is done whatever is pressed.
* `Rpl.only_stop_stops`: : and only a Ctrl-C stops it.
* `Rpl.paused_step`: : a dot (any odd number of them) while it is paused shows the next recorded frame, and it stays paused.
* `Rpl.paused_gets_keys`: Negation for **C73**: while the replay is paused (and in the update that pauses it) the client gets what the user types, at the time of a recorded frame.
* `Rpl.untimed_dropped`: Negation for **C73**: what is recorded without a time, as after a read error, never reaches the client.

### C74 SGR sequences read mean what they mean on a terminal

processEscape for SGR on top of the number codec (C05); judged by the terminal specification's rendition.

Status: **partial**. Proved for parameters 0-7, 30-37, 40-47, 90-97, 100-107 and all indexed and 24-bit ones in any order; an empty sequence, and 8, 22-24, 27, 28, 39 and 49, are ignored (negations proved).

* `sgr_read_meaning_partial`: C74: reading an SGR sequence whose parameters are any non-empty list of reset, flag, named, indexed and 24-bit colour groups, in any order and with any repetitions, a cursor holding some style comes to hold exactly the style that a terminal showing that style shows after the sequence. Missing: code 8 and the codes that switch single things off (`sgr_codes_unread`), and the empty list (`sgr_reset_unread`).
* `sgr_reset_unread`: C74, negation: `ESC [ m`, a reset on a terminal, leaves the cursor's attribute as it was.
* `sgr_codes_unread`: C74, negation: each of the codes 8 (conceal), 22, 23, 24, 27, 28 (flags off), 39 and 49 (default colours) changes what a terminal shows, but leaves the cursor's attribute as it was.

### C75 Escape identifiers name what they identify

escString by ranges; injectivity case by case.

Status: **proved**. With any injective quoting of runes.

* `esc_name_iff`: C75: an identifier has an escape sequence name exactly when it was made from that byte, a byte from 0x01 to 0x7E.
* `csi_name_iff`: C75: an identifier has a control sequence name exactly when it was made from that byte, a byte from 0x01 to 0x7E.
* `escape_ids`: C75: escape and control sequence identifiers are the identifiers that are escapes, and no identifier is both.
* `escape_string_injective`: C75: no identifier fails to print, and two different ones never print alike, given only that quoted runes start with a quote and that different valid runes are quoted differently.
* `printed_forms`: C75: what is printed for each identifier that is not a plain rune: a C0 control as a caret and the key typed with control, a C1 control by its standard name, an escape or a control sequence by its byte, and the invalid ones as such.

### C76 The 24-bit filter keeps everything but makes colours 24-bit

Filter loop over decoded items; commutation with a colour-deepening map on terminal states.

Status: **partial**. Proved for streams of runes outside the escape range and CSI sequences, for foreground colours; backgrounds are not converted, strings, private-use runes, charset selections and runes split between reads are lost or mangled (negations proved).

* `T24.filter_keeps_partial`: C76: when the input consists of kept items, and reads end where items end or with a lone ESC, the output consists of items with the same meanings, in order.
* `T24.sgr_converted`: C76: an SGR sequence comes out as one that does to a terminal with 24-bit foregrounds what the given one does to a terminal with the given ones.
* `T24.filter_shows_partial`: C76: filtering the bytes of any terminal operations, read in pieces that end where operations end or with a lone ESC, gives the bytes of operations that show on a terminal exactly what the given ones show, with every foreground colour made 24-bit. The backgrounds stay as they are: see `background_unconverted`.
* `T24.background_unconverted`: C76, negation: the filter converts no background: an SGR sequence that sets only a background is written as it came, and one whose foreground is converted keeps its legacy background.
* `T24.strings_lost`: C76, negation: of a control string (a window title, say) only the introducer is written; its text and its end are lost.
* `T24.private_rune_mangled`: C76, negation: a character from U+EF01 to U+EFFE is taken for an escape: U+EFC1 comes out as cursor up.
* `T24.charset_mangled`: C76, negation: `ESC ~` is lost, and `ESC ( B` comes out as `ESC B (`.
* `T24.split_rune_mangled`: C76, negation: a character split by two reads comes out as replacement characters.
* `T24.conceal_lost`: C76, negation: conceal, in a sequence whose foreground is converted, is lost.
* `T24.end_flushed`: C76: what is held back at the end of the file is written then: input ending in an escape character comes out with it.

### C77 Drawn lines are straight and joined

Invariant: the error term is the exact deviation times the longer side; symmetric in the axes.

Status: **proved**. Unbounded integers.

* `Line.points_line`: Drawing a line always ends, within as many rounds as the line is long, having set the points of a straight joined line between the two points, ends included.
* `Line.drawLine_sets`: Drawing a line on a canvas never panics, and sets the points of the line that are on the canvas, and nothing else.
* `Line.line_order`: A line stays in the box spanned by its ends along its longer axis: the points are met in order, one for each coordinate.

### C78 The virtual screen shows what a terminal would show

Simulation relation between the emulator and the terminal specification, with phases for the pending wrap; one lemma per act, then induction over acts and calls.

Status: **partial**. Proved for sessions without the situations where it fails: carriage return or relative motion right after a full line, motion by zero, position with the column left out (negations proved); scrolling, erasing below, SGR codes (negations in C29, C30, C74); coloured erasure.

* `emulation_partial`: C78, for sessions without the situations where it fails: whatever text, control sequences, styles and positions are given to a virtual screen that agrees with a terminal, in any number of calls, nothing panics or hangs, and afterwards the screen holds what the terminal shows: every character and rendition, the cursor, the current rendition and the visibility. Missing, because it fails: scrolling, relative motion after a full line (`wrap_then_return`), motions by zero (`zero_motion_screen`), positions with the column left out (`row_ignored`), erasing below (C29), colouring of erased cells, and the SGR codes of C74.
* `clear_emulates`: Clearing a screen, whatever was on it and wherever its cursor was, blanks every cell and makes it agree with a terminal just cleared, the cursor hidden at the top left.
* `fresh_emulates`: A screen just made agrees with a terminal just cleared.
* `wrap_then_return`: Violation: after a full line, a carriage return takes the emulator to the start of the next line instead of the one just filled: `ab`, return, `c` on two columns shows `cb` on a terminal, and `ab` over `c` on the virtual screen.
* `zero_motion_screen`: Violation: a motion by zero is a motion by one on a terminal and none here.
* `row_ignored`: Violation: a position with the column left out is ignored.

### C79 Errors and signals end a run

Frame as a function of what polling finds; the first error stays; induction over frames.

Status: **partial**. Proved for runs without a replay; a read can wait for ever, which is its own ending. Defect (proved): while a replay goes on, signals to stop are ignored.

* `Frm.stop_signal_ends`: : whatever the client, the frames before it and the rest of the frame, a frame in which a signal to stop is found is the last one: `Run` returns an error (unless reading input waits for ever), and the client sees no further frame.
* `Frm.stop_signal_wins`: : the first error wins: if nothing went wrong before the signal was found, the error returned is the signal's.
* `Frm.frame_goes_on`: : a frame goes wrong exactly when something in it does: telemetry, a signal, a read, toggling the recording, the client, the output or the background workers; the error is that of the first of these.
* `Frm.run_ended`: : once a run has ended, further frames change nothing.
* `Frm.run_live`: Without a replay, a run is that of `Model/Frame.lean`: what is proved of it there holds here.
* `Frm.signals_ignored`: Negation for **C114**: while a replay goes on, signals to stop do not end the run. Whatever is recorded and whichever signals come in, as long as there are recorded frames left the run goes on and the client is shown every one of them.

### C80 The client's time follows the ticks and stands still while paused

Each frame's time from the last; induction over frames.

Status: **partial**. Proved for runs without a replay; while a replay goes on the client sees the recorded times (proved), which go back.

* `Frm.client_time`: : the time the client sees is that of the frame, or while paused that of the frame before.
* `Frm.client_time_monotone`: : if the ticks never go back, neither does the client's time, and it is never ahead of the ticks.
* `Frm.replay_shows`: : a frame of a replay that is not paused, without keys for it, runs the client with the next recorded frame: at its time (unless the platform is paused), in the size of that time, with its events but Ctrl-K; the error is the client's, whatever the polls found.

### C81 Input reaches the client once

Events shown in a frame are those decoded in it less own keys; induction over frames with an independent account of what is typed.

Status: **partial**. Proved for clients that handle all their input and at most one read in a frame; a second read in a frame drops what the first one brought, and input left by the client is shown again (negations proved).

* `Frm.input_once_partial`: , for frames with at most one read each and clients that leave no input: the client sees, frame after frame, exactly the events typed, each once and in order, apart from the platform's own keys. Missing, because it fails: a second read in a frame drops what the first one got (`second_read_drops`), and what a client leaves is shown again in a frame without input, as new (`left_shown_again`).
* `Frm.second_read_drops`: Violation: a second input signal in a frame throws away what the first one brought: of `a` and `b`, the client never sees `a`.
* `Frm.left_shown_again`: Violation: input the client leaves is there again, as new, in a frame without input.

### C82 Frame timing statistics describe the round

Filling lemma for the round, a fold for the pass, counting in the sorted list for the quartiles.

Status: **partial**. Quartiles proved for round lengths that are multiples of four; at the default rate Q3 is not the third quartile, and frames at one time at the start of a round are lost from Min (negations proved). FPS, a float, is not modelled.

* `Tel.timing_round_partial`: : a round is complete with every `n`-th frame, and with no other; then the statistics describe the frames of the round, if the clock moved on with every frame: the time is the last frame's, `Elapsed` the time from the first to the last (from the last frame of the round before, when there is one), `Min` and `Max` the least and the greatest of the times between frames.
* `Tel.timing_quartiles_partial`: : and `Q1`, `Q2` and `Q3` are the quartiles of the times between frames, if the number of frames in a round is a multiple of four.
* `Tel.timing_rounds`: in any number of rounds: the flags, and no panic.
* `Tel.quartile_default_rate`: is violated at the default rate, of 15 frames in a round: `Q3` is not the third quartile.
* `Tel.timing_reset_fresh`: : timing that was switched off and on again starts afresh: whatever was timed before, it goes on like new timing data of the same length.
* `Tel.leading_gap_lost`: is violated with two frames at one time at the start: `Min` is not the least.

### C83 Frames can be timed at any frame rate

Strong induction on the number of frames, a round at a time.

Status: **partial**. Proved for rates of at least four; lower ones panic (proved).

* `Tel.frame_rate_timed_partial`: : with a frame rate of at least four, the tick is the rate's period, and any number of frames is timed without a panic; a round is complete every quarter of a second's frames.
* `Tel.frame_rate_low`: is violated by frame rates below four: the first frame timed panics.
* `Tel.frame_rate_zero`: : and a frame rate of zero panics itself.
* `Tel.frame_rate_panics_iff`: : setting the frame rate panics exactly for rates that are not positive.

### C84 Stall statistics describe the stalls

Fold invariant.

Status: **proved**. Pct, a float, is not modelled.

* `Tel.stalls_described`: : the statistics of any stalls are their number, the sum of them all, the least and the greatest; all zero when there are none.

### C85 Resource use is reported over the windows asked for

Ring invariant modulo the size; the walk on the list of kept samples with a chain hypothesis.

Status: **partial**. Proved for samples closer together than the windows; otherwise a difference can exceed its window (negation proved).

* `Tel.usage_sound`: : every difference reported is between the latest sample and a sample taken before which is still kept, whatever the windows and the samples.
* `Tel.usage_windows_partial`: : with samples at most `δ` apart and windows at least `δ` apart, what is reported is, for every window there are older samples than, the longest difference in the window, and, while the ring is not full, one difference over everything there is.
* `Tel.usage_window_exceeded`: is violated with samples further apart than the windows: a difference is over more than its window.

### C86 A recorded session replays as it was

Composition of the theorems for the parts, with one chunk for the size message and the session.

Status: **partial**. Proved for sessions of plain input read in whole things without a change of size and replayed from one read; changes of size are not recorded, and a read ending within a sequence swallows the mark of the next (negations proved).

* `Rpl.record_replay_partial`: : a session recorded with its state and read back gives the state, and then, without keys from the user, the client gets to see every read of the session at its time with its bytes, in order, on a screen of the recorded size; then the replay is done.
* `Rpl.replay_events`: : from a read of whole things the client gets the same events when it is replayed (`replay.go:94-95`) as when it was read (`platform.go:199-203`).
* `Rpl.replay_faithful_iff`: : the replay of a recording shows what the client saw if and only if the terminal had its first size at every read.
* `Rpl.resize_not_replayed`: Negation for **C86**: a change of size while recording is not in the recording, and the client is shown the old one.
* `Rpl.split_swallows_mark`: Negation for **C86**: when a read ends within an escape sequence, the mark with the time of the next read is taken for its end: the client gets an event when live and in the replay one read less, with the mark as input.

### C87 Recordings are begun and ended cleanly

Invariant over histories against a checker of file use.

Status: **partial**. All but the last clause is proved for all histories and failures; failures to begin a recording are not returned (negation proved).

* `Rcd.recording_files`: : whatever is toggled and typed, and however the system calls go: input is recorded to the file the platform says it is recording to; every file opened is used only while it is open and closed once, and the only one open is that of the recording.
* `Rcd.toggle_begins`: : a toggle when not recording begins a recording if and only if the file can be created and the state and size written; a file that cannot be written is removed and closed.
* `Rcd.toggle_ends`: : a toggle when recording ends the recording in any case, and loads it as the replay if and only if it can be opened and read; otherwise the replay is what it was.
* `Rcd.recording_holds`: : after any history, to a recording begun and then ended are written the state, the size and all that was read meanwhile, in that order, and nothing else.
* `Rcd.begin_failure_silent`: Negation for **C87**: that a recording could not be begun is not returned: neither when the file cannot be created nor when the state cannot be written; the input is then not recorded.
* `Rcd.close_failure_hides`: Negation for **C87**: a replay that has been loaded is not reported when the file cannot be closed.

### C88 Profiling runs between entering and leaving, into its file

Invariants over histories with all outcomes of system calls as parameters.

Status: **partial**. That the context says so is proved when syncing succeeds; after a failed sync profiling cannot be started again, and a failing Enter leaves the CPU profiler running (negations proved).

* `Pfl.profile_file`: : after any history, however system calls went: if the profiler runs, then into the file of the context, which is open; and no other file has been left open.
* `Pfl.exit_stops`: : when the context is left, the profiler does not run any more: after any history, whatever fails.
* `Pfl.enter_runs_partial`: : after any history in which syncing files succeeds, the profiler runs if and only if the context says so; and entering without an error a context with a file leaves it running. (What is missing: it should be so when syncing fails too.)
* `Pfl.profile_exact`: : whatever was in the file, after entering, profiling and leaving it holds what the profiler wrote meanwhile, and nothing else.
* `Pfl.snapshot_exact`: : a profile written without an error when leaving is all that is in its file, whatever was there before.
* `Pfl.config_exit`: : leaving writes every profile there is and stops the profilers, whatever fails.
* `Pfl.config_exit_error`: : leaving returns an error exactly if leaving any of the profiles does.
* `Pfl.config_enter_order`: : entering goes from one profile to the next up to the first that fails, and leaves those after it as they were.
* `Pfl.sync_failure_sticks`: Negation for **C88**: if syncing the file fails, the context says that profiling runs when it does not, and entering it again does not start it: nothing more is recorded, without an error.
* `Pfl.enter_failure_leaves`: Negation for **C88**: if tracing cannot be started, entering fails with CPU profiling left running.

### C89 Waiting for the next frame ends with a tick or with the ticker

Invariant over histories; readiness of the channels captured by the wait.

Status: **partial**. Proved for waits begun while active; a wait begun when not active never returns (negation proved).

* `Tik.one_ticker`: : after any history at most one ticker is going: the one of the context, with its duration, or after leaving it none.
* `Tik.wait_ends_iff`: : a wait begun while the ticker is active can return the zero time just when it has been left, or entered anew, since (no tick has the zero time); and it still can later.
* `Tik.wait_times`: : a wait returns no other times than those its ticker has put into its channel while it was going.
* `Tik.inactive_wait_hangs`: Negation for **C89**: a wait begun when the ticker is not active (never entered, or left) returns never, whatever happens later; it should return the zero time.

### C90 Changing the log file loses no line

Invariant: files in order, then the buffer, hold what was logged.

Status: **partial**. No line is lost in changes from file to file while the worker is there, and they are in the right file if nothing is waiting; otherwise lines go to the wrong file or are lost (negations proved). The worker is at rest between calls.

* `Lgs.no_line_lost_partial`: : however often the log file is changed, while lines are logged and written: when it is stopped all that was logged since the first file was set is in the files, in order, except that lines may be in a later file than the one set when they were logged; and all of it is in memory.
* `Lgs.change_when_flushed`: : if nothing is waiting to be written, a change of the file keeps the old one as it is, and what is logged from then on goes to the new one.
* `Lgs.same_file`: : setting the file there is already changes nothing, and keeps it open.
* `Lgs.started_buffers`: : once started, lines wait in memory for the worker, which is what keeps logging from waiting for the file; a notification brings them there.
* `Lgs.pending_goes_to_new`: Negation for **C90**: a line not yet written when the file is changed goes to the new file.
* `Lgs.unset_loses`: Negation for **C90**: when there is no log file any more, what was not yet written is lost, and the worker goes on.
* `Lgs.set_after_unset_dead`: Negation for **C90**: a file set later then gets nothing at all, not even when stopped.
* `Lgs.direct_change_drops_line`: Negation for **C90**: when the file is changed while lines are written directly, the line saying so is lost, even from memory.

### C91 The overlay's header line is clickable where it is drawn

A drawing lemma for runs of text on a whole screen, induction over the segments.

Status: **partial**. Proved for screens with room for all segments; on narrower ones the line panics or is written over itself (exact condition and witnesses proved).

* `Hud.header_drawn_partial`: : on a screen with room for all its segments and a blank column after each, the header line is drawn without a panic: every segment's characters stand in the first row, right to left with one blank column between them, in the style the screen had; no other cell is changed; and the box returned for each segment, which is where clicks on it are looked for, is exactly the place of its characters (`Spec.boxes`, `box_shows`). Missing, because it fails: screens without enough room (`header_panics_iff`, `narrow_panics`).
* `Hud.boxes_disjoint`: : no two of these boxes share a cell.
* `Hud.box_shows`: : each text stands in its place: from its left column on come its characters.
* `Hud.header_panics_iff`: Negation for **C91**, exactly: on a screen of several columns the header line panics (in `ansi.Pt`) whenever the segments before the last one, with a blank column after each, need the whole width or more.
* `Hud.narrow_panics`: Negation for **C91**: on a terminal of forty columns, showing the overlay panics.
* `Hud.last_overwrites`: Negation for **C91**: with room for all segments but the last, its box lies partly left of the screen and its text is written over its neighbour: "bcd" after "a" on four columns gets the box of columns -1 to 1, but is written in columns 1 to 3.

### C92 The overlay's rows, buttons and switches are drawn where they are clicked

Drawing lemmas composed; counting presses as in C29.

Status: **partial**. Headings, buttons and switches proved for screens wide enough; the box of a row is one column off its text, and narrow screens panic (negations proved).

* `Hud.heading_drawn`: , headings: wherever the cursor is in a row of a screen wide enough, the title, a blank and the rule stand at the right end of that row, up to the last column; no other cell changes; the box returned, where clicks on the heading are looked for, is exactly their place; and the cursor is below, in the last column.
* `Hud.row_drawn_partial`: , rows, as they are: with the cursor in the last column, as every row leaves it, the key, a blank and the value, padded to the width of values, stand in that row, but end before the last column; no other cell changes. The box returned begins and ends one column further right (`row_box_shifted`): this is what is missing in the full statement.
* `Hud.button_drawn`: , buttons: in a box of at least five columns on the screen, a button fills the box exactly: brackets at its ends, and between them the label in the middle, cut with an ellipsis when it does not fit; all in the selection style, or the button style if the mouse is over the box; no other cell changes, and the style is plain afterwards.
* `Hud.toggle_drawn`: , switches: an odd number of left presses in the button's box turns the flag over, an even number leaves it; these presses and no other events are used up; and the row shows the name and a button that says what the flag is now.
* `Hud.heading_panics`: Negation for **C92**: on a screen without the columns for the title, a blank and the rule, a heading panics.
* `Hud.row_panics`: Negation for **C92**: a row panics even when just these columns are there.
* `Hud.row_box_shifted`: Negation for **C92**: the box of a row is not where the row is drawn: with the key "k" and the value "v" on two columns, the text begins in column 4, counted from one, and the box returned in column 5; so the last column of the box, and of the screen, is blank.

### C93 Choosing a file in the overlay

Every other control leaves the events of a control alone; induction over frames with the line editor theorem.

Status: **partial**. Proved for frames that draw the same controls in the same order; controls are known by the order they are drawn in, so text goes to another control when details are shown or hidden, and a press on a control drawn earlier does not end editing (negations proved).

* `Hud.press_activates`: : a press in the box of a control, and none elsewhere, makes it the active one and begins its editing, with the other keys of the frame; no other control is edited in that frame, whichever was active before.
* `Hud.no_press_goes_on`: : without a press, the control that is active goes on being edited, and no other is.
* `Hud.no_press_none`: : without a press and with no control active, none is edited.
* `Hud.press_elsewhere`: : a press outside all boxes ends the editing, whatever else is pressed: no control is edited in that frame, and none of those drawn is active afterwards.
* `Hud.edit_session_partial`: , a whole session: a press in the box of a control with a `create` method, then frames without a press, then Enter: exactly one file is asked for, for that control, and by the name that the keys of all these frames give (beginning with the name of its file, if it has one), or by its default name if that is empty; with Escape, none is. Afterwards no control is active. All the frames draw the same controls, with boxes apart; missing, because it fails: frames that do not (`typed_for_another`).
* `Hud.ended_emptied`: : when editing ends the line is emptied: nothing typed for one file is left for the next.
* `Hud.default_pressed`: : while nothing is typed yet and the default name is shown, an odd number of left presses on it takes that name; otherwise editing goes on.
* `Hud.typed_for_another`: Negation for **C93**: a click on "CPU", "x", a click on the time in the header, which hides the timing details, and Enter: now the file "x" is for "Trace", because controls are known by their number in the frame only.
* `Hud.ends_by_order`: Negation for **C93**: a press on another control does not end the editing if that one is drawn before, but it does if it is drawn after.

### C94 The list of profiles adds the profile that is clicked

Drawing lemma by induction over the rows; exact result of the click loop.

Status: **partial**. Proved for names shorter than the column, rows below the list and one press in a frame; otherwise a profile is added twice, another is added, it panics or the last row is dead, and with no profile left the list is never closed (negations proved).

* `Hud.selector_list`: , the open list: when the list was open, or is opened by an odd number of presses on the button, and profiles are left whose names are shorter than the column, and there are rows below the list: every profile left is shown on its own row, in order, and nothing else but the name of the row changes; every left press on a row adds the profile of that row; these presses are used up; and any left press closes the list.
* `Hud.selector_button`: , the button: when the list is closed and an even number of presses was on the button, it stays closed, nothing is added, and a button "Add" is shown beside the name.
* `Hud.offered_iff`: : the list offers exactly the profiles that have not been added, in their order.
* `Hud.picks_shown_partial`: : with the list open, a left press on a cell of a row, the only left press there is, adds the profile shown on that row and no other, which was not there before, and closes the list.
* `Hud.elsewhere_closes`: : with the list open, left presses all of which are elsewhere add nothing and are not used up, and close the list; without any left press it stays open.
* `Hud.clicks_add_twice`: Negation for **C94**: two clicks on a row between two frames add the profile twice.
* `Hud.long_name_panics`: Negation for **C94**: with a name as wide as the column, clicking on the row below the list, which is blank, panics: the index is that of no profile; and the row of the second profile adds the third.
* `Hud.none_left_stays`: Negation for **C94**: when no profile is left the list is never closed again: no press anywhere makes the control inactive.
* `Hud.last_row_dead`: Negation for **C94**: a list that reaches the bottom of the screen shows its last profile, but a click on it adds nothing.

### C95 A bitmap written to a terminal is shown there

Induction over blocks and rows, tracking the rendition.

Status: **partial**. Proved without styles and for styles that are never empty, for bitmaps starting at row zero; a block with an empty style keeps the style of the block before it, and parts of bitmaps starting lower are shown one row too low (negations proved).

* `Wbm.bitmap_written`: (everything that is shown): written to a terminal whose cursor is in the first column with enough room, every block of the bitmap is shown as the rune its styles give, rows one under the other, starting in the cursor's row (one below if the bitmap's first row of bits is not row zero); every other cell is left as it was. The rendition of a block is the last one of its own and the earlier blocks' that is not empty.
* `Wbm.bitmap_shown_partial`: for bitmaps whose first row of bits is row zero and styles that are never empty: every block is shown as its styled rune in its own style, and nothing else changes. Missing: other bitmaps (`sub_starts_below`) and empty styles (`style_carries_on`).
* `Wbm.plain_shown`: without styles: every block is shown as its braille rune, in the rendition the terminal had, and nothing else changes.
* `Wbm.style_carries_on`: does not hold for empty styles: a block given no style after a bold one is shown in bold.
* `Wbm.sub_starts_below`: does not hold for a part of a bitmap that starts below its first row of bits: the row of the cursor is left empty and the blocks start in the row below.

### C96 Redraws, sizes and the platform's keys

Exact view of a frame from its polls.

Status: **partial**. Proved for runs without a replay; sizes and results of system calls are given. While a replay goes on the client is shown the recorded size, Ctrl-R is left to it, and errors of the polls are lost (proved, see C114).

* `Frm.replay_shows`: : a frame of a replay that is not paused, without keys for it, runs the client with the next recorded frame: at its time (unless the platform is paused), in the size of that time, with its events but Ctrl-K; the error is the client's, whatever the polls found.
* `Frm.stop_live`: Typing Ctrl-C while a replay goes on ends it: unless the polls found an error, which ends the run, the frame is one without a replay, with what was typed before the Ctrl-C.
* `Frm.frame_shows`: A frame in which the client saw `v`, whatever was there before.
* `Frm.update_seen`: The overlay is shown or hidden by an odd number of Ctrl-K.
* `Frm.count_keys`: The count is the number of presses of the key.
* `Frm.keys_struck`: Striking one key leaves the presses of all others.
* `Frm.polls_size`: After any polls, the size is that of the last successful resize.
* `Frm.redraw_again`: : between two frames of a run in which the client keeps the size it is shown and the terminal says nothing else, the client is told to redraw only by Ctrl-L.
* `Frm.resize_seen`: : when the terminal says it has another size than the frame before was left with, the client is told to redraw and shown that size, or the one the terminal says it has when asked again.

### C97 Workers and profiles are started and stopped together

Induction over the group with the trace of calls; invariant of the profiles.

Status: **proved**. Starting and stopping every profile when nothing fails; a failed sync keeps a profile marked active (C88).

* `Wks.enter_order`: , entering: the contexts are entered in order, up to and including the first that fails, whose failure is the result; all of them when none fails.
* `Wks.notify_order`: : so are they notified.
* `Wks.exit_order`: , exiting: every context is exited, in reverse order, whatever fails, and the first error is the one returned.
* `Wks.life_order`: , a whole run: first workers are started, in order, then notified, then all of them are stopped, once each, in reverse; no worker is notified unless all have been started; and a run in which anything fails ends with an error.
* `Pfl.press_starts`: : an odd number of presses on the control of all profiles, none of which is active, starts every one of them if nothing fails;
* `Pfl.press_stops`: and when any is active it stops every one of them if nothing fails.
* `Pfl.press_held`: Presses on the control keep it so.
* `Pfl.stop_tries_all`: : whatever fails, every profile is tried: after stopping all of them neither profiler of the runtime runs, and the others are all inactive.
* `Pfl.group_error`: : the error is the first of those of all the profiles, in order: the one of the processor, the trace, and those written at the end.
* `Pfl.spinner_in_range`: : the spinner never fails: the place of its rune is one of four at any time.

### C98 The log viewer shows its lines where they can be read and clicked

Exact cells after a frame by induction over the lines drawn, from cursor motion and text printing of the virtual screen (C21, C91).

Status: **partial**. Exact cells proved for all logs of printable runes on screens with more rows than the viewer's lines and wide enough for the title; each line has its row when the log has three lines more than are shown and lines are narrower than the screen; otherwise lines and title are written over each other, the title is not where the click is, and short screens panic (negations proved).

* `Hud.log_drawn`: , exactly what a frame of the log viewer does, on a screen of more rows than the view has lines and wide enough for the title, with a log of printable lines: it opens or closes when clicked an odd number of times; consecutive lines of the log are chosen, as many as the view has room for; and the title, if it is open, and the lines are written one under the other from the title's row on, the last row taking all there is no room for.
* `Hud.log_taken`: : the state of the viewer after a frame, and the events taken by it: it is that of `View.update` (C51) for the presses on its row and the turns of the wheel over its rows, and exactly these are taken.
* `Hud.log_open_partial`: , the open view of a log of at least three lines more than it shows, all shorter than the screen is wide: it has the title in its first row, which is the row to be clicked, and under it, down to the last row, consecutive lines of the log, each in its row; no other cell changes.
* `Hud.log_closed`: , the closed view: one line of the log in the last row, cut to its width; no other cell changes.
* `Hud.log_short_panics`: Negation for **C98**: the open view panics on a screen that has not more rows than it has lines, whatever is in the log.
* `Hud.log_few_overlap`: Negation for **C98**: two lines in an open view of two are written over each other and over the title, in the last row.
* `Hud.log_few_title_dead`: Negation for **C98**: and a click on the title does not close it.
* `Hud.log_wide_skips`: Negation for **C98**: a line as wide as the screen leaves a row free, and the line after it is written over by the next, or over it in the last row.

### C99 The overlay leaves the client alone

Composition of C91 and C98 around an arbitrary client function; disjoint boxes make the counts of presses independent.

Status: **partial**. Proved for screens with room for the header and the log (C91, C98); the cursor and style are not restored, the overlay is drawn in the client's style, and presses on it reach the client (negations proved).

* `Hud.hidden_transparent`: : hidden, the overlay is not there: the screen, the events and the error are the client's, which was shown the events of the frame but Ctrl-K.
* `Hud.shown_partial`: , the visible overlay without details: the client is run with the events of the frame but Ctrl-K, and the header and the log are drawn over its output, nothing else; the error is the client's.
* `Hud.overlay_partial`: , the visible overlay after the client has run, on a screen with room for the header: the header is drawn in the first row over what the client drew, nothing else is; odd numbers of left presses on the time, the frame rate and the profiling sign open or close their details, and these presses are taken; then the details are drawn below if any are open, and the log.
* `Hud.cursor_not_restored`: Negation for **C99**: the client's cursor is not restored: the virtual screen ignores that it is saved and restored.
* `Hud.overlay_in_client_style`: Negation for **C99**: the overlay is drawn in the style the client ended with.
* `Hud.press_reaches_client`: Negation for **C99**: a press on the overlay is shown to the client too.

### C100 Grids written as lines read back as the same grid

Both functions against a list of characters and rendition changes; the styles carried over from row to row agree on both sides; round trip of C01 and merging of C02 and C63 for each change.

Status: **partial**. The round trip is proved for non-empty grids without the concealed rendition and without control characters; those are lost or panic, no lines and empty lines panic, and GridRowData of a part of a grid returns cells outside of it or panics (all proved). RunesToLines overwrites the grid's empty cells (proved).

* `Gln.lines_roundtrip_partial`: (grids of characters, without the concealed rendition: see `conceal_lost`): the lines that `GridLines` makes of a grid are read back by `ParseGridLines` as a whole grid of the same size with the same cells, the cells with nothing in them holding the fill character. The grid may be a part of another one.
* `Gln.lines_faithful_partial`: : so grids with the same lines are of the same size and have the same cells, up to the fill character.
* `Gln.line_read`: : a line made of characters and SGR sequences, whatever follows, is read as the cells it shows.
* `Gln.lines_printed`: : printed on a terminal, the lines show the cells of the grid in their renditions, the concealed one included; nothing but characters and SGR sequences is in them.
* `Gln.ctls_printed`: `AttrsToCtls` shows its attributes: a space in each one, after a reset.
* `Gln.control_panics`: : a line with a control character other than NUL in it is not cellsOf, whatever is around.
* `Gln.escape_panics`: : nor is a line with a control sequence other than SGR in it.
* `Gln.ragged_panics`: Lines of different lengths cannot be read.
* `Gln.empty_panics`: The code falls short: without a command line there is no program to run, and the first update with room for output panics.
* `Gln.rows_partial`: (grids as wide as their store: see `sub_rows_overrun`): `GridRowData` gives the rows.
* `Gln.sub_rows_overrun`: `GridRowData` of a part of a grid gives rows as long as those of the whole grid, with cells outside of the part, and panics on a part in the lower right corner.
* `Gln.runes_lines_stick`: `RunesToLines` changes its rows, and with them the grid they come from: filled once, the cells stay filled, and a second call with another fill character makes the same lines.
* `Gln.conceal_lost`: C76, negation: conceal, in a sequence whose foreground is converted, is lost.
* `Gln.c1_cells_lost`: A cell with the character U+009B is written as the beginning of a control sequence, which swallows what follows.

### C101 Attributes and colours are printed as their names, distinct ones differently

Names against Lean strings; injectivity from splitting at blanks and commas and from the decimal notation.

Status: **proved**. For attribute values built from renditions and colours, which is what the constructors and DecodeSGR give.

* `Sgr.attr_printed`: **Attributes are printed as their words**, in a fixed order, with blanks between them.
* `Sgr.colour_printed`: The name of a colour.
* `Sgr.colour_names_differ`: **Different colours have different names.**
* `Sgr.attr_names_differ`: **Different styles are printed differently**, so the printed form determines the style.

### C102 The decode command prints everything it reads, with a note for each escape sequence

Items as in C43, with the loop in place of Decode; the same normal form for what is held between reads; pairs of keys by induction on the events.

Status: **partial**. Proved for cuts between items and inside sequences behind their introducers. Characters split by reads are replaced, an ESC at the end of a read leaks, C1 controls are not stripped, a cancelled sequence leaves a replacement character, an invalid byte in a string blocks all further output, and the end of the input makes the program exit with failure (all proved). The texts of package fmt are parameters.

* `Dcm.decoded_partial`: (part proved): whatever items the input consists of, and however it is cut into reads — between items, and anywhere inside control sequences and control strings once their introducer has been read — everything is printed, in order: characters as they are, and a note in place of each escape sequence, or nothing if those are to be stripped. Only a beginning of an item at the end of the input is left over. Missing: the other cuts, for which it is false: `split_rune`, `split_escape`.
* `Dcm.sgr_noted`: : an SGR sequence with any parameters that are understood is printed as the words for what it sets.
* `Dcm.stripped_partial`: (part proved): when escape sequences are stripped, just the characters are left. Missing: C1 controls that begin nothing, sent as two bytes, which are kept (`c1_kept`).
* `Dcm.c1_kept`: C102, negation: stripping keeps C1 controls: `ESC M` comes out as U+008D, not as nothing, and without stripping there is no note of it.
* `Dcm.split_rune`: C102, negation: a character split by two reads comes out as replacement characters.
* `Dcm.split_escape`: C102, negation: an escape sequence split after its ESC is not recognised, and its ESC is written out, even when escape sequences are to be stripped — unless the ESC is the last byte there was room for.
* `Dcm.cancel_replaced`: C102, negation: an escape sequence that is cancelled at the end of what has been read gives a replacement character that stands for nothing.
* `Dcm.bad_string_blocks`: C102, negation: after a control string that has an invalid byte nothing more is printed, whatever follows, be it the end of the string: all is kept in the buffer.
* `Dcm.exit_fails`: C102: the program never exits with success, if it reads to the end of its input: that end is returned as an error, whatever the input.
* `Dcm.must_run`: C102: `MustRun` goes on exactly when there is no error, and otherwise exits with the error's code — but with 1 if that code is 0.
* `Dcm.interactive`: : interactively, as long as neither a signal nor an error ends it, the program ends when, and only when, Ctrl-C comes twice in a row, as keys or as interrupts, or Ctrl-Z comes twice in a row and suspending fails; until then a second Ctrl-L in a row clears the screen, a second Ctrl-Z suspends, and nothing else does; and there is a line for every key.
* `Dcm.interactive_stops`: : signals to stop and errors of the input end it at once.
* `Dcm.clear_says_quit`: C102, negation: pressing Ctrl-L once announces that pressing it again will quit; it clears the screen.

### C103 The interact command runs the command line with its variables filled in

The variables' places by induction on the words; one update by an invariant of the loop over the words that says which word is chosen and what its edit line is; then induction on the updates.

Status: **partial**. Proved for every command line and every sequence of updates that does not panic; with a command and enough rows none does. Defects (proved): an empty command line panics with the first update that has room, a screen with too few rows panics, giving up an edit and a change of size alone run the command again, a value cannot be emptied, and the last row of the screen is never used. What is pressed and what the edit line makes of the input are arbitrary here; C130 has the screen and the events, and proves that its frames are frames of this model.

* `Itr.shows_present`: Whatever the user has done, the output area shows the command with the present values: nothing without room, a prompt while a value is missing, otherwise the outcome of the command line with every variable replaced and every guarded dollar sign freed. Every command that was ever run was the command line with values for all its variables.
* `Itr.starts_empty`: At first no variable has a value and nothing has been run.
* `Itr.values_edited`: What an update does to the values: the variable whose edit is completed with some text gets that text; all others stay. The edit that goes on is that of the last chosen word.
* `Itr.runs_on`: With a command and screens that have room for the rows above the output, nothing fails.
* `Itr.idle`: An update without presses, without an edit and without a change of size changes nothing; in particular the command is not run again.
* `Itr.value_never_emptied`: A value that is there cannot be taken away again.
* `Itr.resize_reruns`: The code falls short: a change of the screen's size alone runs the command again, whatever effects it has.
* `Itr.cancel_reruns`: The code falls short: giving up an edit runs the command again.
* `Itr.empty_panics`: The code falls short: without a command line there is no program to run, and the first update with room for output panics.
* `Itr.small_screen_panics`: The code falls short: on a screen without room for the rows above the output, the output area is given a negative height, which panics.
* `Itr.last_row_unused`: The output area ends a row above the bottom of the screen: drawn from row `top` on, its last row is the last but one.
* `Itr.setCmd_forgets`: Setting a command line forgets the one before: its words, its variables and their values.

### C104 The timing panel shows the clock's state and its controls do what they say

Each row as one run of cells after a jump of the cursor; buttons through the lemmas for the select lists; the four rows are composed with the cells outside each kept.

Status: **partial**. Proved for every screen with ten columns beside the values and four rows from the cursor on. Defects (proved): on a screen one row too short the two buttons fall on each other and recording cannot be switched, and a screen too narrow for the names panics. The texts of the times are given from outside, as strings that fit their column.

* `Hud.timing_drawn`: : the timing panel on a screen with room for it, the cursor in the last column as the overlay puts it: the client is paused or resumed exactly by an odd number of left presses on the first button, and recording is switched exactly by an odd number on the second, unless a replay runs; these presses and no others are taken; the panel shows the times, and on the buttons what a press does; no other cell changes.
* `Hud.pause_drawn`: The control for pausing.
* `Hud.record_drawn`: The control for recording, or how far the replay is.
* `Hud.short_record_dead`: Negation for **C104**: on a screen one row too short both controls are drawn in the last row, and the presses all go to the first: recording cannot be switched.
* `Hud.narrow_timing_panics`: Negation for **C104**: with fewer columns the panel panics.

### C105 The demo shows the place of every cell as its colour, and ends or suspends on its keys

The loop over a row as a write of one run of cells; the loop over the rows by induction with the offset zero for each; the copy by induction on the cells; frames by induction with the rows below the first kept.

Status: **partial**. The keys are proved in full. The picture holds on screens of one row only. Defect (proved): the column is not reset before the offset of a row is looked up, so the lookup fails for every row after the first and each row is written over the first one; on every screen of more rows the first row shows what is meant for the last row and all other rows are blank, and after the screen has become narrower they show leftovers.

* `Dem.pattern_shown_partial`: , on a screen of one row: every cell shows what is meant for it, at the time of the frame. Missing: screens of several rows, where it is false (`rows_missing`).
* `Dem.frame_drawn`: : what one frame shows, whatever was drawn before: the first row shows what is meant for the last row, and every other cell shows what the demo's own grid happened to hold.
* `Dem.shows_one_row`: : on a screen whose size stays, every frame shows in the first row what is meant for the last row, and blanks in all others.
* `Dem.rows_missing`: **C105 fails** on every screen of two rows or more: no cell below the first row ever shows its colour.
* `Dem.narrower_shows_stale`: **C105 fails** when the screen has become narrower: what the last frame left in the demo's grid beyond the new width is shown in the rows below.
* `Dem.keys_exact`: , the keys: Ctrl-C ends the demo and takes all input from there on, Ctrl-Z suspends unless it ends; the escape sequences left are logged unless it ends; and a frame is drawn in any case.
* `Dem.row_panics_iff`: : writing a row panics exactly when it reaches past the cells.

### C106 Suspending stops the process with the terminal left, and returns after it was continued

A state machine of the goroutine, the process and os/signal; an invariant for each place in the code, kept by every step; the lost signal by induction on what follows.

Status: **partial**. Safety and errors are proved in full. Defect (proved): the channel given to signal.Notify has no buffer and os/signal does not wait when it sends, so a SIGCONT that is handed on before the goroutine has reached the receive is lost, and the call hangs, with the process running and the terminal left, until another SIGCONT; the return is proved for a signal that comes while the goroutine waits. When the signal to stop cannot be sent the terminal is not entered again.

* `Susp.suspend_safe`: : in every execution: the process is stopped only after the terminal was left; without an error the call returns only after the process was stopped, once, and continued, and the terminal is then as it was before; whatever it returns, no signals are sent to its channel any more.
* `Susp.suspend_errors`: , errors: when leaving the terminal or the signal fails, the process is not stopped; the call fails only when one of its calls does.
* `Susp.suspend_returns_partial`: , the return, when the signal comes while the goroutine waits for it. Missing: the signal coming before, where it is false (`wakeup_lost`).
* `Susp.wakeup_lost`: **C106 fails**: when the signal is handed on before the goroutine has come to the receive, it is lost: the process runs, but the call never returns, whatever happens, until somebody sends the signal once more.
* `Susp.failed_kill_leaves`: **C106 fails**: when the signal cannot be sent, the call fails and leaves the terminal left.

### C107 The name of a mouse state says modifiers, button and action, and names tell states apart

Case analysis over all reports, and over all states with a reader of names.

Status: **partial**. Proved for all states but those of the fourth direction of the wheel. Defect (proved): these have the names of the right button, for all modifiers, since ButtonID gives them its number.

* `Mouse.report_name_partial`: : the name of the state decoded from any report says the modifiers, the button and what was done. Missing: the fourth direction of the wheel, where it is false (`wheel_right_named_right`).
* `Mouse.name_tells_partial`: : two states, neither of the fourth direction of the wheel, have the same name only if they are the same.
* `Mouse.name_total`: Every state has a name: none of the panics is reached.
* `Mouse.wheel_right_named_right`: **C107 fails**: turning the wheel in its fourth direction has the name of the right button.

### C108 Updates written to a plain destination arrive whole or are reported

The write as a function of the bytes; then the theorem of C32 with the bytes received.

Status: **partial**. Numbers and errors are proved in full, the display under the conditions of C32. Defect (proved): the state returned is that of a complete update however much was written, so trying once more with it writes nothing of what was lost.

* `Thru.update_through_partial`: : when an update returns no error, the terminal that gets what was written shows the screen, under the conditions of `update_shows_partial`.
* `Thru.writeGrid_through_partial`: for `WriteGrid` without styles.
* `Thru.through_exact`: : the destination gets the first bytes of what is to be written and their number is returned; there is no error exactly if there was nothing to write, or it took all without one.
* `Thru.overlong_panics`: A destination that claims to have taken more than it was given makes the call panic.
* `Thru.state_regardless`: **C108 fails**: the state returned does not depend on how much was written: after a failure it is the one for a complete update.
* `Thru.failed_never_shown`: **C108 fails**: a first update whose write fails, with nothing taken; when it is tried once more with the state returned, nothing at all is written.
* `Thru.applyTo_through_partial`: for `Cursor.ApplyTo`: when it returns no error, the terminal's cursor is shown or hidden as asked for, at the place and with the attributes asked for if it is shown, and nothing else has changed on the screen.

### C109 The lolwut command draws exactly the sides of its squares, and its interactive mode keeps them fitted to the screen

A drawing is a function on bitmaps that sets a given set of points; sides, rows and columns of squares compose such drawings by induction; the frame copies the canvas onto a cleared screen; the sizes by division with remainder.

Status: **partial**. The shifts and corners, which the code computes in floating point, are arbitrary here. Defects (proved): a frame compares only the width of the screen with the canvas, so after a change of height alone the rows that were gained stay blank and the squares are not counted anew until the wheel is turned or the width changes; and the padding is chosen by the width but taken off the height, so a screen of one row and more than two columns shows no squares at all. If more squares are asked for than there are dots, the static picture has squares without extent.

* `Lol.draw_picture`: The picture: exactly the points of the sides of the squares are set, as far as they are on the canvas, besides what was set before.
* `Lol.frame`: Every frame: it never panics; the wheel changes the size of the squares, down to 1; Ctrl-C and Ctrl-Z as in C105; the canvas is made anew for the screen if its width or the size of the squares has changed; and the screen shows the picture as far as the canvas goes.
* `Lol.picture_shown_partial`: When the width of the screen has changed, or the wheel was turned, or the height has not changed, the picture covers the whole screen; and if the picture was fitted anew, its squares are as many as cover the screen up to the padding, in both directions.
* `Lol.taller_blank`: Only the width is compared with the canvas: after the screen has become taller, and no wider or narrower, the rows that were gained stay blank, in every frame until the wheel is turned.
* `Lol.one_row_empty`: The padding is taken off the height as well, but is chosen by the width: on a screen of one row and more than two columns there are no squares.
* `Lol.frames_run`: The whole run: whatever the keys, the wheel and the sizes of the screen, no frame panics.
* `Lol.setup_picture`: The picture printed without `-i`: the squares asked for, as large as fit into the columns beside the padding; the canvas is as wide as asked for and as high as the squares and the padding.
* `Lol.setup_too_many`: If more squares are asked for than there are dots in a row, all of them have no extent.

### C110 Grids written with styles show what the styles make of every cell

The styles flatten to one fold; full and differential loops are drawings of a list of points to write, for which the terminal's reaction is known (C32).

Status: **partial**. Proved for styled cells that can be drawn (as in C32) and jumps of the cursor that the terminal follows. Defects (proved): with styles that make blanks of nothing, a full redraw does not write blanks at all and drops their attributes; with styles that make something of nothing, a differential update to a cell that is styled to nothing writes nothing, and what was there stays.

* `Styled.styled_full_partial`: , full redraws: a terminal of the grid's size that gets what `WriteGrid` writes, with styles and a prior screen of another size or none, shows each cell as the styles make it; except for coloured blanks, if the styles make blanks of nothing (see `coloured_blank_lost`).
* `Styled.styled_diff_partial`: , differential updates: with a prior screen of the same size which the terminal shows, what is nothing there being shown as the styles make it, each cell is shown as the styles make it, unless they make something of nothing and nothing of a cell (see `styled_away_stale`).
* `Styled.written_whole`: for any destination (see C108): when there is no error, it got all bytes of `styled_full_partial` or `styled_diff_partial`, and the cursor that agrees with the terminal is returned.
* `Styled.coloured_blank_lost`: Negation for **C110**: with the style that makes blanks of nothing, a blank with a red background is not written in a full redraw, and the terminal shows a blank without it.
* `Styled.styled_away_stale`: Negation for **C110**: with styles that make a dot of nothing and nothing of an `a`, a differential update from `b` to `a` writes nothing, and the `b` stays; a full redraw would leave the cell blank.

### C111 A new platform opens the files asked for and has the frame rate asked for

Each step of setup has one shape (unset, fails, opens); a list of steps opens the files up to the first failure, by induction over the steps; options by induction.

Status: **partial**. Given that Term.Notify and closing the old log file succeed. Defects (proved): a *Config, which is an Option, too, does not keep the flags of the command line from being used, and they win over it; files opened before an error stay open (the platform that holds them is not returned); a frame rate that is not positive panics rather than being an error.

* `Pnw.new_exact`: : what a new platform has, whatever options there are: the files for which a name was given, each with the first name given for it, are opened anew in a fixed order up to the first that cannot be created, which makes for the error; each is used for its purpose, and no other file is opened or closed, except that the new log file replaces the old one; the platform ticks, keeps estimates and timings as the last frame rate says.
* `Pnw.new_uses`: : if nothing fails, the files in use are exactly those named, each open, and different from each other and from all before.
* `Pnw.new_panics_iff`: : `New` panics exactly if a frame rate is not positive (and the terminal's input can be set up).
* `Pnw.failed_leaves_open`: Negation for **C111**: files that were opened before the error stay open, though the platform is not returned.
* `Pnw.pointer_overridden`: Negation for **C111**: a configuration given by pointer does not keep the flags of the command line from being used, and they come first; one given by value does.

### C112 MustRun ends the process with the error's status and reports the error

Cases on the code; the log as in C90, stopped and then writing directly.

Status: **partial**. Defects (proved): without a log file the error of a program that uses the platform is not reported at all, since the log goes to memory only; if the platform cannot be set up after its log file was opened, the error is not in that file either, as the worker that would write it is never told to; a code that is a multiple of 256 ends the process with status 0.

* `Pnw.mustRun_status`: : without an error `MustRun` does nothing; with one the process ends, with the error's code if it has one that is not zero, and with status 1 otherwise.
* `Pnw.signal_status`: : a process that ends because of a signal has a status that tells which, and that is neither 0 nor 1.
* `Pnw.reported_partial`: : after a run, when the log's worker was stopped, the error is in the log file, after all lines that were pending.
* `Pnw.status_zero`: Negation for **C112**: an error whose code is a multiple of 256 ends the process with status 0.
* `Pnw.error_only_in_memory`: Negation for **C112**: without a log file the error is nowhere but in the memory of the process that ends (importing the platform sends the log there).
* `Pnw.setup_error_lost`: Negation for **C112**: even with a log file, the error of a platform that could not be set up does not get there, nor does anything logged since the file was set: it waits for the worker, which was started already, to be told to write it.

### C113 A replay marks where the recorded mouse is

Induction over the frames after the last mouse event for the decay; the cell's place by division with remainder; the table of colours over all 256 states.

Status: **partial**. Which frames are played when is C73. Defect (proved): the mark for no button is white on white, so its X cannot be seen, only a white block.

* `Rpl.marked`: : after playing any frames, of which the last with a mouse event has its last one at a place with a state, the frame drawn by the client has a mark there, if that is on the screen, and is as the client drew it everywhere else. The mark has the colour of the button in that frame and in the fourteen after it, and the colour for no button from then on.
* `Rpl.unmarked`: : as long as there was no mouse event, there is no mark.
* `Rpl.marks_differ`: : marks tell the buttons apart.
* `Rpl.mark_white_on_white`: Negation for **C113**: the X of the mark for no button cannot be told from its background, both being white.

### C114 While a replay goes on the platform still obeys and the client sees what it saw

Refinement of the frame loop by one with a replay; induction over frames; events as maps over the queue.

Status: **partial**. Proved what every frame of a replay shows and how Ctrl-C ends it; without a replay runs are those of C79-C81 and C96. Defects (proved): signals to stop and read errors are ignored while a replay goes on; after Ctrl-C the screen keeps the recorded size until Ctrl-L or a change of size; the replayed client gets Ctrl-L and Ctrl-R, which the platform took from the live one.

* `Frm.run_live`: Without a replay, a run is that of `Model/Frame.lean`: what is proved of it there holds here.
* `Frm.replay_shows`: : a frame of a replay that is not paused, without keys for it, runs the client with the next recorded frame: at its time (unless the platform is paused), in the size of that time, with its events but Ctrl-K; the error is the client's, whatever the polls found.
* `Frm.paused_shows`: : while a replay is paused, by a space now or before, frames without a dot run the client at the time and in the size of the recorded frame last shown, with what is typed now but for Ctrl-L, spaces, dots and Ctrl-K; the replay stays where it is.
* `Frm.paused_step`: : a dot (any odd number of them) while it is paused shows the next recorded frame, and it stays paused.
* `Frm.replay_done`: When all recorded frames have been shown, the next one ends the run with the error that says so.
* `Frm.error_lost`: While a replay goes on and Ctrl-C is not typed, an update does not depend on the error of the polls: neither signals to stop nor errors of reading count.
* `Frm.signals_ignored`: Negation for **C114**: while a replay goes on, signals to stop do not end the run. Whatever is recorded and whichever signals come in, as long as there are recorded frames left the run goes on and the client is shown every one of them.
* `Frm.stop_live`: Typing Ctrl-C while a replay goes on ends it: unless the polls found an error, which ends the run, the frame is one without a replay, with what was typed before the Ctrl-C.
* `Frm.size_stays`: Negation for **C114**: a replay that is ended by Ctrl-C leaves the screen in the recorded size, whatever the terminal's size is: until Ctrl-L is typed or the terminal changes its size, the client goes on to be shown the recorded size.
* `Frm.keys_replayed_iff`: : a client sees in a replay the same events as when they were typed exactly if neither Ctrl-L nor Ctrl-R was among them: live, the platform takes these away; in a replay the client gets them.
* `Frm.replay_shows_keys`: Negation for **C114**: the replayed client gets the Ctrl-L that the live client did not get.

### C115 A replay starts from the state the recording began with, every time

Induction over the fields with the numbers of fields sent; replays by the theorem for one pass.

Status: **partial**. The platform's own state is restored always, a client that is made anew always; gob is modelled as sending the fields that are not zero. Defects (proved): fields of the client that were zero when saved keep their present values; a replay that is run again keeps the mouse's mark of the last pass, and, if it was paused at its end, starts paused there.

* `Rst.started`: : a run with a replay starts with the platform's own state as it was saved when the recording began, whatever it was since, and with the recorded input from its beginning; of the client, the fields that were not zero then are as they were, and the others are as they are now.
* `Rst.restored_iff`: : the client starts as it was when the recording began exactly if every field that was zero then is zero now.
* `Rst.new_client_restored`: : a new client starts as the client was when the recording began.
* `Rst.failed_keeps`: : if the state cannot be read, whatever it is, the platform's own state and the replay are as they were.
* `Rst.again_partial`: : a replay can be run again and again: unless it is paused then, whatever came before, it runs the client with all recorded frames from the first on, each at its time, in the size then and with its bytes; and then says it is done.
* `Rst.zero_not_restored`: Negation for **C115**: a client whose count was 0 when the recording began and is 5 now starts the replay with 5; one whose count was 3 starts with 3.
* `Rst.mark_left`: Negation for **C115**: the mouse's mark is not taken away when the replay starts again: there is one before any event of the mouse has been replayed.
* `Rst.paused_left`: Negation for **C115**: a replay that was stepped to its end starts again paused, at the end: the client, in the state of the beginning, is run at the time of the last frame, with what the user types.

### C116 A replay says how long it takes and its frames say what they hold

Arithmetic on the theorem about sessions read back; texts as concatenations.

Status: **partial**. Formats of times and quoting are given. Defects (proved): the first frame of a recording that is read back has no time, so that the duration is always the largest there is, 292 years; the text of a frame shows the message in place of the bytes.

* `Rpl.duration_partial`: : if every frame has a time, and they are at most 292 years apart, the duration is the time from the first to the last. (What is missing: frames without a time should not count.)
* `Rpl.duration_single`: : a single frame takes no time.
* `Rpl.duration_max`: Negation for **C116**: the duration of every session that is recorded and read back is the largest there is, 292 years, as the first frame has no time: for all sessions that end after the year 292.
* `Rpl.string_no_bytes`: Negation for **C116**: what was typed is not shown: frames that differ in it only have the same text.
* `Rpl.string_mark_partial`: : the text tells whether anything was typed: it ends in "mark" exactly if not. (What is missing: what was typed.)

### C117 Opening the terminal keeps terminals, replaces other files, and leaks nothing

Cases over the calls.

Status: **proved**. Whether a file is a terminal and whether opening succeeds is given. That log output is redirected, as the comment says, is not done.

* `Opn.opens`: : files are returned exactly if each given file is a terminal or the process' terminal can be opened in its place. A file that is a terminal is kept, the others are replaced by the process' terminal, newly opened, the one for reading and the other for writing, and nothing else is opened; nothing is closed.
* `Opn.fails`: : otherwise there is an error, every file that was opened is closed again, once, and the given ones are left open.
* `Opn.opens_iff`: : one or the other.
* `Opn.standard`: : the files of the standard terminal are standard terminal files.

### C118 The palette command shows every colour as it is and in columns

Bytes as text of operations of the independent terminal; composition lemma for pieces that show something; nearest colours from C54, aliases from C69.

Status: **partial**. The listing, its samples, its quoted controls and the models are proved in full. Columns: those of numbers below 100 are at the same places, those from 100 on one further right. Defects (proved): line 100 is one column off line 99; with themes by the model id, the columns depend on the length of the controls. The first two lines are shown in the rendition the terminal had (part of the specification).

* `Pal.listing`: : asked for an unknown model the command ends with an error that lists the names; otherwise, whatever the terminal showed before, what it prints shows the listing, by the last model asked for or else by `id`: sections for the first eight colours, the next eight, the themes if asked for, and the other 240; on every line the number of the colour, one sample with the colour in the foreground and nothing else, one with it in the background and nothing else, and, quoted, the controls for these.
* `Pal.set_spec`: : setting the model fails for any name but the six and then leaves the flag as it is; otherwise the flag has that name and the model of that name.
* `Pal.all_listed`: Without themes, the 256 colours are listed once each, by number.
* `Pal.columns_partial`: (part proved): the lines of colours with numbers below 100 have their columns at the same places, for any model but `id` and for numbered colours by that one, too; those of numbers from 100 on are all one further to the right. Missing: all in the same place, see `shifted` and `themes_shifted`.
* `Pal.shifted`: The code violates the claim about columns: the line of colour 100 has its samples one column further to the right than the line of colour 99.
* `Pal.themes_shifted`: The code violates the claim about columns: by `id`, the lines of colours of a theme are as long as their controls.
* `Pal.quote_read`: : controls are quoted so that they can be read back: what is printed is a string literal of Go that means the same bytes, whatever they are.

### C119 Frame times are logged when asked for, each round once

State machine of frames with shared slices; normal form of a collection; invariants over all operations; rounds from C82.

Status: **partial**. Proved for the telemetry's own switch set by the client. Defects (proved): the configuration and the overlay set Config.LogTiming, which Telemetry.update does not read, so that nothing they do logs timing; switching the panel off in the frame that ends a round logs zeros; a worker late by a round loses a round; with logging asked for by the configuration, the time the panel was off counts as a frame.

* `Tel.frames_run`: : telemetry as it is made never panics, whatever is done to its switches: all frames are run, up to one for which the system gives no resource usage.
* `Tel.timing_never_logged`: Negation for **C119**: whatever a user does, with timing to be logged by the configuration (`-platform.timing.log`) or by the overlay's button, no frame times are ever logged: both set the configuration's field, and what is logged depends on the telemetry's. States saved meanwhile do not set it, either.
* `Tel.timing_logged_partial`: , as far as it is so: with the telemetry's own switch set, by the client, and the worker in time, while nothing switches timing off or on and no state is loaded, each round of frames is logged once, at its end, with the times between its frames, and nothing else is logged of timing. What is missing is that the configuration and the overlay cannot set this switch (`timing_never_logged`) and that switching the panel off spoils what is logged (`zeros_logged`).
* `Tel.zeros_logged`: Negation for **C119**: switching the panel off in the frame that ends a round, while timing is logged, logs zeros.
* `Tel.late_lost`: Negation for **C119**: when the worker is late by a round, a round is lost.
* `Tel.panel_afresh`: : the panel switched off and on again starts afresh, unless logging is asked for by the configuration: the timing is as new.
* `Tel.pause_counted`: Negation for **C119**: if it is, the time switched off counts as a frame.
* `Tel.measured_iff`: : the rate shown is the measured one exactly while timing is on or logged.

### C120 Stalls are counted and logged, each once

Memory of the buffer with lengths into it; invariant: the buffer holds the stalls pending, fewer than its capacity.

Status: **partial**. What is shown is proved in full while timing is on; what is logged exactly. Defects (proved): with timing off nothing is shown or logged; asked to log stalls, nothing is logged unless they are tracked by the panel, and a loaded state that says they are tracked does not track them; a stall is logged again in each frame to the end of the round, or not at all when the frame that ends the round stalls; the share divides the stalls of a round by the time of one frame.

* `Tel.stalls_counted`: , the panel: tracking is switched on while timing is on, at any frame of a round; then in each frame what is shown is the number, the sum, the least and the greatest of the stalls of the frames from the last one that ended a round on; none is missing.
* `Tel.stalls_logged`: , the log, exactly: if stalls are to be logged at the beginning of a frame, one line is logged in it, of all the stalls from the frame that ended the last round on; if the frame itself ends a round and stalls, its stall takes the place of the first of them.
* `Tel.stall_logged_partial`: , as far as it is so: a stall is in the line logged in the frame after, unless it is the only one from the last round on, and that frame ends a round and stalls. That it is in no other line is not so (`stall_logged_again`).
* `Tel.switched_logged`: : switching the tracking of stalls off or on in a frame loses nothing of what was collected in it: whatever else is done to the switches then, and whether the flush stalls or not, one line is logged, of the stalls the output had recorded when the frame began.
* `Tel.untracked_nothing`: Negation for **C120**: while stalls are not tracked, nothing is shown or logged of them, also when they are to be logged, or a loaded state says that they are tracked.
* `Tel.untimed_nothing`: Negation for **C120**: while timing is off, nothing is shown or logged of stalls, also when they are tracked.
* `Tel.stall_logged_again`: Negation for **C120**: a stall is logged again in each frame to the end of the round.
* `Tel.stall_lost`: Negation for **C120**: a stall in the frame that ends a round takes the place of the one in the frame before, which is not logged at all.
* `Tel.share_above_all`: Negation for **C120**: the share of the time spent in stalls is of the stalls of the whole round but of the time of one frame: it is more than all of it.

### C121 The telemetry log is lines of JSON, of resource usage at most one a second

Small type of JSON with its shortest text; invariant on the time last logged.

Status: **proved**. The data of stalls are under the name stalls, that of the others under data. Errors of writing to the file are not modelled.

* `Tel.usage_apart`: : lines of resource usage are at least a second apart, whatever is done.
* `Tel.usage_line`: : a line of resource usage is over the last one to eight seconds, in nanoseconds.
* `Tel.line_json`: : each entry is a line of JSON: the time, the name, and the data.

### C122 The frame rate panel shows the telemetry and its headings switch it

Lines of a column by induction; disjoint boxes for presses.

Status: **partial**. Proved for screens with room. The code fails elsewhere: on a screen that ends with the first heading all headings are drawn there and neither switch can be turned; with fewer than 17 columns besides the width of values it panics; and the first heading switches a flag that nothing depends on.

* `Hud.fps_drawn_partial`: : the panel on a screen with room for it. An odd number of left presses on "# Frame Timing:" switches the timing, one on "# Output Stalls:" the tracking of stalls, and one on "# Frame Control:" a flag; these presses and no others are taken, each heading counting those in its own place. The panel then shows the three headings, and under the second and the third, if they are switched on, the durations of frames and the stalls as they are after the presses; no other cell changes.
* `Hud.column_row`: Every row of a column shows its line.
* `Hud.column_outside`: Rows above or below a column are not touched.
* `Hud.short_stats_dead`: Negation for **C122**: on a screen that ends with the row of the first heading, all headings are drawn there and the first takes the presses: neither the timing nor the tracking of stalls can be switched.
* `Hud.narrow_stats_panic`: Negation for **C122**: with fewer columns the panel panics.
* `Hud.control_idle`: Negation for **C122**: "# Frame Control:" controls nothing: whatever the flag it switches is, the panel draws, switches and takes the same.

### C123 The telemetry and profiling panels show and switch what they name

Lines drawn one below the other by composition; induction over the profilers; disjoint boxes for presses.

Status: **partial**. Proved for screens with room and frames in which no file is being chosen, and no profile except by one press (C93, C94 are about the rest). The code fails elsewhere: with too few columns both panels panic, and on a screen that ends where the telemetry panel begins all its rows are drawn over one another and neither switch can be turned.

* `Hud.telemetry_drawn_partial`: , telemetry: on a screen with room, the row for the file neither active nor pressed, the panel shows the name of the log's file and whether timing and stalls are logged; each of the two is switched by an odd number of left presses on its button, these presses are taken, and nothing else happens.
* `Hud.profiling_drawn_partial`: , profiling: on a screen with room, no file being chosen and no press on the buttons: the panel shows for each profiler its name, its sign and its file; a profiler is started or stopped exactly by an odd number of left presses on its sign; these presses are taken, and nothing else happens. An odd number of left presses on the heading closes the panel: then only the heading is shown, and no other press is taken.
* `Hud.profile_added_partial`: , adding a profile: with the list of profiles open, a left press on a row of the list, the only left press there is, adds the profile shown on that row to those of the program, closes the list and does nothing else: the panel stays open, no profiler is started or stopped, and all other events are left as they were.
* `Hud.sign_some`: : within a second there always is a sign.
* `Hud.no_create_inert`: : what cannot be given a file, as all profilers together, never stays active and is never given one.
* `Hud.stack_row`: Every row shows its line.
* `Hud.stack_outside`: Rows above or below are not touched.
* `Hud.short_tele_dead`: Negation for **C123**: when the panel begins in the last row of the screen, all its rows are there, and whatever is pressed neither timing nor stalls are switched.
* `Hud.narrow_tele_panics`: Negation for **C123**: with fewer columns the panels panic.
* `Hud.narrow_prof_panics`: , negation: on a screen too narrow for its heading, the profiling panel panics.

### C124 Open panels stand one below the other and do not take each other's presses

Each panel as a step on the state; boxes above a row do not meet those below.

Status: **partial**. Proved for screens with room and frames in which no file or profile is being chosen. On smaller screens the panels fail as C104, C122 and C123 say.

* `Hud.panels_stacked_partial`: : on a screen with room, nothing being chosen and no press on the buttons to choose files or profiles: the panels that are open stand one below the other, in the order timing, telemetry (with either of timing and frame rate), profiling, frame rate; each does what it does alone, with the presses of the frame in its own places, and only these are taken.
* `Hud.overlay_panels`: : the panels within the overlay: below the header, which changes only the first row, they begin in the second row with the cursor in the last column, with no presses left that the header took; a press on the header decides which panels are open in this frame.
* `Hud.stack_append`: : lines above and lines below are drawn as one stack.
* `Hud.stack_row`: Every row shows its line.
* `Hud.stack_outside`: Rows above or below are not touched.

### C125 The builtin terminfo strings do what they are called

An independent two-screen terminal (Spec/Display); each string is shown to be the text of operations and these are run on any terminal state.

Status: **partial**. The Linux console's entry has empty EnterCA and ExitCA, so that what was on the screen is lost (linux_not_kept); proved for the other five. The maps are proved under the conditions under which entries are read rightly (readFrom_partial, C53).

* `Tin.maps_named_partial`: : of an entry that is read, the maps have for each name the string of the capability of that name (under the conditions of `readFrom_partial`).
* `Tin.builtin_known`: : for every name a builtin entry is found for, it is one of the six entries, and each of the six is found by its own name.
* `Tin.known_builtin`: : the entry of each known terminal is builtin.
* `Tin.screen_kept_partial`: : for all entries but that of the Linux console: between `EnterCA` and `ExitCA` the other screen is shown and nothing that is drawn reaches the main one, and afterwards the main screen, the cursor, the renditions and the character sets are what they were; and the next `EnterCA` shows a blank screen.
* `Tin.linux_not_kept`: Negation for **C125**: for the Linux console both are empty, so that what is drawn between them stays on the main screen.
* `Tin.screen_cleared`: : `ClearScreen` erases the whole screen shown and takes the cursor to its first cell, and changes nothing else.
* `Tin.renditions_off`: : `SGR0` takes all renditions, colours and fonts back, and changes nothing else but the character sets.
* `Tin.rendition_on`: : `Bold`, `Underline`, `Blink` and `Reverse` switch on that rendition, and change nothing else.
* `Tin.cursor_shown`: : `ShowCursor` and `HideCursor` make the cursor visible and invisible (mode 25), and change neither the screens nor the cursor's place and rendition.
* `Tin.keypad_switched`: : `EnterKeypad` and `ExitKeypad` switch the keypad's application mode on and off, and that of the cursor keys (mode 1) on terminals where it comes with it, and change nothing else; where there is none, they are empty.
* `Tin.mouse_switched`: : `EnterMouse` and `ExitMouse` set and reset the modes of reporting presses (1000) and drags (1002) in the two extended forms (1006, 1015), and change nothing else; of the entries of Eterm and the Linux console they are empty.

### C126 Keys of the known terminals are decoded, told apart, and count as what they are

Each key string is cut into items of the decoder by computation over the six tables; events of different keys are not prefixes of each other.

Status: **partial**. The keys of xterm and screen that are SS3 sequences, and the first five function keys of the Linux console, are decoded as an escape and then a letter, which counts as typed: F1 types P, Up types A (keys_type_letters). So characters are exact for Eterm and the rxvt entries only, and arrow keys of xterm and screen count as no movement (arrows_moved_partial says which).

* `Tin.keys_decoded`: : whatever keys and characters are typed on a known terminal are decoded in turn, each as its own events, whatever comes after them.
* `Tin.keys_decoded_all`: All of it, when nothing comes after.
* `Tin.keys_apart`: : on every known terminal, what was typed can be told from the events: different sequences of keys and characters are never decoded alike.
* `Tin.characters_exact_partial`: : on the terminals whose keys are control sequences, each key is one event, an escape, so that the characters counted are exactly those typed.
* `Tin.keys_type_letters`: Negation for **C126**: on xterm, screen and the Linux console some keys are two events, the second of them a letter: F1 of xterm and screen counts as a typed P, that of the Linux console as an A, and the arrow up of xterm and screen as an A.
* `Tin.arrows_moved_partial`: : the movement counted is the sum of the arrow keys typed, on the terminals whose arrow keys are control sequences; on xterm and screen there is none at all, whatever is typed.

### C127 A program that uses the platform leaves the terminal as it found it

The strings of the mode are read as operations of an independent terminal with two screens; runs nest as a stack of alternations, over which the terminal's state is an invariant.

Status: **partial**. Proved for contexts and suspended functions that do not fail, on terminals in the usual state whose soft reset leaves the saved cursor of the main screen alone. Otherwise the code violates it (proved): where a soft reset takes the saved cursor home the cursor is lost; a context that fails before the mode is set, and a function that fails under RunWithout, make the mode be reset when it is not set, which moves the cursor; and SizeToTerm swallows its error so that a screen keeps a stale size.

* `Sess.mode_tells`: , the strings: entering the terminal of a new platform tells the terminal to show the alternate screen, to report the mouse and to start from a clean state, and exiting tells it the opposite in the opposite order; however arrays grow and bytes are appended.
* `Sess.run_nested`: Along any program the contexts are entered and exited in turn, with those that come after the mode within it.
* `Sess.session_restored_partial`: : a program runs on the terminal of a new platform, with any contexts added to it, suspending and resuming as it likes; whatever it draws and others draw meanwhile, the terminal shows in the end what it would show if it had not run: the main screen with what the others have drawn, the cursor where they left it and as they left it; and all modes are as they were. Whenever the program itself draws, the alternate screen is shown and the mouse is reported in the extended form; whenever others draw, the terminal is as if only they had drawn on it.
* `Sess.screen_exited`: , the platform's screen: when it is exited, the terminal's rendition is plain and its cursor visible, whatever it showed, and nothing else changes; all that was staged is dropped. What is not written for an error stays in the buffer.
* `Sess.screen_resumed`: , resuming: after that, whatever happened to the terminal meanwhile, once the mode is set and the screen entered again, its recorded cursor agrees with the terminal's, it takes the terminal's size, and the next frame is drawn in full.
* `Sess.homes_loses_cursor`: , one that has a single saved cursor and takes it home at a soft reset: the screen is shown again, but the cursor ends in the first cell, without renditions, wherever it was.
* `Sess.failed_enter_moves`: , negation: if a context before the mode fails to be entered (the attributes, say, because they cannot be set), the mode is reset though it was never set: the cursor jumps to wherever it was saved last.
* `Sess.failed_without_moves`: , negation: if a function run without the terminal's context fails, the mode is reset a second time when the program ends: the cursor is back where it was before the program, though others have written since.
* `Sess.size_error_stale`: , negation: if the terminal's size cannot be had when the screen is entered again, `Enter` returns no error but forgets nothing: wherever the terminal's cursor is now, the next frame is drawn as if it were still where it was.

### C128 What is asked for on the command line is what is done

The loop of package flag is shown to accept exactly an independent grammar of command lines; each variable is then the last value given to its name, by induction over the settings.

Status: **partial**. Settings, the commands and the platform's files are proved for all command lines. The code violates the rest (proved): the flag platform.timing has no effect; no flag names the telemetry log, so that it cannot be asked for; AddFlags with a prefix forgets that its configuration asked for timing (addFlags_keeps); and a negative number given to lolwut is taken for an unknown flag instead of being raised to one. Package flag is modelled as documented.

* `Flg.spelled_parsed`: : a command line that spells settings makes these settings in order, whichever way each is spelled, and leaves the arguments after them; if one of them is turned down, so is the command line.
* `Flg.parsed_spelled`: : only a command line that spells settings is taken, and then these are made.
* `Flg.platform_parsed`: : the configuration made of a command line: for each file the name given last, if any; and whether timing is logged is what was said last.
* `Flg.platform_asked_partial`: : a platform made when nobody parsed the command line before, without a `Config` among its options, and with all files created: for each file the command line has a flag for, the file in use is the one named last on the command line; if none is named or the name is empty, the first named by pointers to configurations among the options; if there is none either, there is no file (the log goes where it went). Timing is on exactly if that is said last with the flag to log it, or by one of the options.
* `Flg.platform_taken_iff`: : an unknown flag, a missing value or a wrong one, and nothing else, ends the process: a command line is taken exactly if it spells settings with sensible values.
* `Flg.addFlags_keeps`: : adding flags keeps all names as they are; with a prefix, it forgets that timing was asked for.
* `Flg.palette_asked`: : the palette command lists by the models asked for, in order, with themes if that was said last (C118 says what is listed).
* `Flg.decode_asked`: : the decode command has each of its modes as said last.
* `Flg.atoi_iff`: Numerals are read for what they are, and nothing else is.
* `Flg.lolwut_asked`: : lolwut is interactive if that was said last, and its columns, squares per row and squares per column are the first three arguments after the flags, at least one, by default 60, 8 and 12; a wrong number ends it.
* `Flg.refused`: , what is turned down: an argument whose name begins with a third dash or with the equal sign is no flag; a name that no flag has is undefined, or asks for help.
* `Flg.parsed_once`: : once the command line has been parsed, `New` leaves it alone, whatever it is.
* `Flg.timing_flag_inert`: Negation for **C128**: the flag to measure timing from the beginning has no effect: command lines that differ in it only make the same platforms.
* `Flg.telemetry_unnamed`: Negation for **C128**: no command line names the file of telemetry.
* `Flg.negative_is_flag`: Negation for **C128**: a negative number is not taken for one, but for an unknown flag.

### C129 What is typed is what the edit line holds

The bytes of a frame decode to the keys; the frame loop shows them to the client once; the line takes every one of them and leaves nothing; induction over frames with the line holding the edited text as the invariant.

Status: **partial**. Proved for frames with at most one read, each bringing whole keys in pieces cut anywhere. The code violates the rest (proved): a character cut by the end of a frame is lost; characters of the private use area U+EF00 to U+EFFF act as escape sequences, so that typing U+EFC4 moves the cursor; backspace in the middle of a text (C48) and a second read in a frame (C81) as shown there. Drawing is assumed not to panic, which typing_shown_partial gives for boxes on the screen with a column to spare.

* `Typ.typing_edits_partial`: : a program with an edit line, run by the platform. Keys are typed, in any number and mixture; their bytes arrive in frames, some with input and some without, the bytes of a frame in pieces cut anywhere. After any number of frames the line is active and holds the text and cursor that the keys typed until then give. Missing, because it fails: backspace in the middle of a text (`Edl.backspace_middle`), a frame with two reads (`Frm.second_read_drops`), a character cut by the end of a frame (`cut_char_lost`), and characters that stand for escapes (`private_char_moves`).
* `Typ.typing_typed`: The same for keys typed into an empty line.
* `Typ.typing_enters_partial`: , the end: when the keys of a last frame are followed by Enter, the line is done, with the text that all the keys give.
* `Typ.typing_shown_partial`: , on the terminal: an active line with a box on a whole screen, something to show and a column to spare. After the keys of a frame, a terminal that shows the screen and has its cursor where the user's is (which is what a flush gives, C35) has in the box the part of the edited text around the cursor, all of it if it fits, and the cursor at its place in the text.
* `Typ.cut_char_lost`: Negation for **C129**: a character cut by the end of a frame is lost.
* `Typ.private_char_moves`: Negation for **C129**: a character of the private use area moves the cursor.

### C130 What the interact command shows and what is typed into it

Each write is an ink of cells on one row; boxes of words are apart, so presses are told apart; the frame is split at the word pressed; refinement to the model of C103 for everything else; safety by composing the safety of screen operations (C27).

Status: **partial**. Frames without presses on words, the keys, the absence of panics and the link to C103 are proved in full. Editing is proved for frames in which one word is pressed and nothing before it is edited; the output for output of one line. Defects (proved): while a value is edited, the words after it stand where the edit line leaves the cursor rather than in their places; a value edited again has what is typed before it rather than after; the lines of an output with line feeds alone start where the one before ended; output with two question marks in a mode sequence hangs the program. Screens with too few rows and empty command lines panic as shown in C103.

* `Itr.frame_keys`: , what is returned: an interrupt exactly when Ctrl-C was typed, otherwise a suspend when Ctrl-Z was.
* `Itr.idle_shown`: , a frame in which no word is pressed or edited: the words stand on one row in their styles, each variable with its value; below stands the output area, except for the last row; everything else is blank. Nothing is run.
* `Itr.frame_told`: , every frame with a screen is a frame as Model/Interact has it, for some presses and edits: what C103 says about these holds with the screen.
* `Itr.edit_frame_partial`: , a frame in which a variable is edited: an odd number of presses on its word begins the edit, and the keys go to the edit line, which holds what it would hold by itself. Enter takes the text for the value, unless it is empty, and the output area shows what the new values call for; Escape leaves the values. Partial: the presses of the frame must all be on the word, and no word before it is being edited, whose edit line would take the keys.
* `Itr.typed_value_partial`: : press a variable that has no value, type its value and Enter, and the command has the value; if it was the last one missing and there is room, what is shown is the outcome of the command with the values in the places of the variables.
* `Itr.prompt_shown`: , the output area while a value is missing: the prompt, if it fits.
* `Itr.outcome_shown_partial`: , the output area after a run: the status, the error in red if there is one, and the output, each on a row of its own, if these fit and the output is a single line.
* `Itr.frame_safe`: , no frame of a command panics, whatever the events and the outcomes of running it, on a screen with room for the words: at worst it hangs. Afterwards the output area has the room below the words but for one row, so that the frames after it are as `idle_shown` tells.
* `Itr.session_safe`: , no session panics: after any frames, on screens of any sizes with room for the words, with any events, and whatever comes of running the command, what is shown is up to date and in an area of the size last given; or one of the frames has hung.
* `Itr.editing_moves_words`: Negation for **C130**: while a value is edited the words after it stand elsewhere, drawn over what was there: `rm $x=a y` turns into `rm a ya`.
* `Itr.typed_before_value`: Negation for **C130**: a value that is edited again is not replaced by what is typed; the edit begins before it.
* `Itr.output_lines_shift`: Negation for **C130**: the lines of the output stand below each other's ends, as nothing returns the cursor to the first column (`main.go:121`).
* `Itr.output_hangs`: Negation of the rest of `session_safe`: a command whose output has two question marks in a mode sequence (`ESC [ ? ? h`) hangs the program which shows it, on its first frame.

### C131 Drawing through the differ shows what drawing directly would

Compose the emulation (C78), the update (C32) and the flush (C35): an invariant between frames says what the differ believes of the terminal; looks of cells determine runes and styles, as attributes are injective.

Status: **partial**. Missing, each because of a proved defect: frames with an awkward jump of the cursor (C32; the diagonal shown here comes out wrong), a style set last with nothing written after it (C35), a first frame under a coloured background on terminals that erase in colour (C32), calls outside of what the emulation follows (C78), and writes that are cut short (C35).

* `Direct.session_shown_partial`: : on any terminal, whatever it shows at first, through any sequence of frames, changes of size and redraws: every frame is on the terminal as if it had been drawn there directly. Partial: frames that are not `Easy` (see C32).
* `Direct.frame_shown`: , a frame: what a client draws with calls that a terminal would follow is, after the flush, on the terminal as if the calls had been made on the terminal itself, just cleared; its cursor is the user's. The record is right again.
* `Direct.new_synced`: A new differ is given the size of a terminal, of which nothing else is known.
* `Direct.resize_synced`: After the screen was given the terminal's new size, whatever is on the terminal, the record is right.
* `Direct.redraw_synced`: After a redraw was asked for, whatever is on the terminal, the record is right.
* `Direct.diagonal_wrong`: Negation: the diagonal, drawn on a terminal, has `b` on the second row; drawn through the differ, it has `b` on the first. The frame is one a terminal would follow, with nothing left hanging.

### C132 What a program that runs on the platform draws is what the terminal shows

The invariant of C131 with the platform's order of resize, reset and redraw; a reset screen emulates a blank page in the style of the recorded cursor.

Status: **partial**. The page is blank but has the style the terminal has (or none): Reset inherits the style of the cell changed last, so that the same frame drawn twice can look different (style_carries_over). Text that does not begin by positioning can be lost (unplaced_text_lost). If the terminal's size changes between polling and the redraw, cells of earlier frames come back (stale_cells_shown). Missing as in C131: awkward jumps, coloured erasing, styles with nothing written after them.

* `Direct.plat_shown_partial`: : a program that runs on the platform, from entering the terminal on (`screen.go:190`). Partial: frames that are not `Easy`, and calls that do not begin by saying where.
* `Direct.plat_frame_shown`: , a frame: there is a blank page, such that what the client draws on it is, after the flush, on the terminal; if the terminal was written on by something else, a redraw was asked for.
* `Direct.sizeTo_synced`: After the terminal said its size, old or new, whatever is on it, the record is right.
* `Direct.style_carries_over`: Negation: the same frame drawn twice shows differently the second time, since the style of the cursor is the one in which the last changed cell was written: `a` becomes bold.
* `Direct.unplaced_text_lost`: Negation: a text that does not say where it is to be is lost, if the cell changed last was in the last column and the cursor is hidden: `d` is written, and nothing is on the screen.
* `Direct.stale_cells_shown`: Negation: the size is asked for again on a redraw, after the screen was cleared. A window of four by two becomes two by two, which is noticed when polling, and four by two again before the redraw this causes: the client draws nothing, and the terminal shows what was drawn in the frame before.

### C133 What is typed into an edit line shows on the terminal

Compose typing (C129), the drawing of the line (C66) and the flush (C131): outside the box nothing is ever drawn, so that the cursor only moves within one row and never past its end.

Status: **partial**. Missing: boxes that reach the last two columns, where the cursor is shown wrong (typed_last_column), boxes of one column (C66), backspace in the middle and the other defects of typing (C129), the head-up display, and a first frame under a coloured background on terminals that erase in colour (C32). How typed bytes become the events of a frame is C129.

* `Direct.typed_shown_partial`: : a program that edits a line in a box, on a terminal that shows anything when it is entered. After each frame, any number of keys having been typed before it, any characters being shown and the terminal having been given other sizes, or having been written on by others and a redraw asked for, it shows exactly the text that the keys give, or the part around the cursor, and the cursor where it is in the text. Partial: boxes which reach the last two columns (`typed_last_column`), what typing does not do (C129), and the head-up display.
* `Direct.line_frame`: A frame of a program that edits a line: what is flushed shows the line.
* `Direct.update_drawn`: The keys of a frame are handled and the line is drawn on a blank screen.
* `Direct.cells_boxed`: Only cells of the box are written.
* `Direct.typed_last_column`: Negation: a box that ends before the last column of the terminal. When the text fills it, the blank after the text is written in the last column, from which going back one column leads into the text: the cursor is shown on the last character of the text instead of after it.

### C134 What is typed at a terminal is what it shows, from bytes read to bytes written

Join the frame loop (C82), typing (C129) and the shown line (C133): an invariant between frames over the input, the events, the line, the screen and the terminal.

Status: **partial**. Missing, each because of a proved defect: what typing does wrong (C129: backspace in the middle, two reads in a frame, characters cut by the end of a frame), boxes that reach the last two columns (C133), a first frame under a coloured background on terminals that erase in colour (C32), sizes that change between polling and drawing (C132, stale_cells_shown). Out of scope: the head-up display when shown, replays, and failing or short writes.

* `App.end_to_end_partial`: : a program that edits a line, run by the platform on a terminal that shows anything at first: from the bytes that are read to those that are written. Keys are typed, their bytes come in pieces cut anywhere, frame after frame; the terminal is given other sizes, and is written on by others with a redraw asked for. After each frame the terminal shows exactly the text that all keys typed until then give, or the part around the cursor, and the cursor in it.
* `App.frame_shown`: A frame.
* `App.polls_sent`: The keys typed in a frame are its events, and the sizes are the terminal's.
* `App.update_view`: What the client gets in a frame: the keys but those for the platform; the display stays hidden, and there is a redraw if one was asked for.
* `App.polled_going`: After changes of size that the polls tell of, a session goes on from nothing recorded, at the last size.
* `App.readAny_able`: Reading all that there is reads it, and the input can be read so again.

### C135 A picture drawn on the platform's screen is on the terminal, dot for dot

Drawing on a blank whole screen gives the braille rune of each block (C62, C24); a block of cells in reading order is written without awkward jumps; then the flush of C131.

Status: **partial**. Frames that are drawn anew (the first, after changes of size, on redraws) are shown whatever they are. Missing: frames of which only the changes are written, if this takes the jumps that Cursor.To gets wrong (C31): two dots that appear at once may both be shown in the first row (animation_wrong). Erasing everything must not colour the screen (C32).

* `Direct.pictures_shown_partial`: : a program that draws pictures, from entering the terminal on, whatever is on the terminal then. Partial: frames that are not drawn anew and take awkward jumps (see `animation_wrong`).
* `Direct.picture_frame`: A frame of a program that draws pictures: it is drawn without a fault; if it takes no awkward jumps, as when all is drawn anew, the terminal shows after its flush exactly the picture.
* `Direct.picture_smooth`: A picture that is drawn anew takes no awkward jumps.
* `Direct.animation_wrong`: Negation: two dots appear at once in a blank picture, one in the first cell and one in the last. The cursor is not moved down to the second, since it is in its column after the first was written; both are shown in the first row.
* `Direct.whole_made`: A whole screen can be drawn on.

### C136 A frame that the terminal takes in two pieces is shown whole

The bytes left in the buffer are written first by the second call, which does nothing else; so both pieces are the update's bytes; then the flush of C131.

Status: **partial**. Missing: what follows. After a frame in two pieces the record has the new cells but the old cursor (screen.go:97-107 returns before it takes the new state), so that the next frame, if only its changes are written, may put them into the wrong cells (stalled_misplaces: z is written over x); a redraw is right if the frame has left the style and the cursor's visibility as they were. Frames whose jumps Cursor.To gets wrong are left out (C31). The flags of polled files are changed by asking for their descriptor, and calls to fcntl that fail are in C45.

* `Stl.stalled_shown_partial`: : a drawn frame is flushed into a terminal that takes any part of it and then would block: the terminal gets all of it, once and in order, and shows it as if it had taken it at once; the number of bytes is right, and the file has its flags back.
* `Stl.flush_pieces`: A flush in two pieces writes what one in one piece would, and gives the file its flags back.
* `Stl.flush_whole`: In one piece.
* `Stl.flush_again`: : if it would block again although it was made to block, what it has taken both times is counted, the flags are given back, the error is returned and just the rest is kept, with which the next flush goes on.
* `Stl.flush_fails`: : if the file fails for another reason, or the screen is a part of another, there is no second attempt: the result does not depend on what that would do, the file has just the bytes it took and its flags are not touched, and the error is returned.
* `Stl.unwrap_spec`: : what an error is taken for is the one inside of it that holds no other, however deep; there is only one.
* `Stl.stalled_misplaces`: Negation: after a frame that was taken in two pieces, the record of the cursor is the one before it. `abcde` is shown, then an `x` in place of the `a`, which is taken in two pieces, then a `z` in place of the `e`: it is written where the `x` is, since the cursor is taken to be at the end of the line.

### C137 What is clicked at the terminal is what the client counts

Each act is one item of the input (C43) and one entry of the queue (C49, C57); counting for targets that are apart filters the list; the frames by induction, with the entries left over that press nothing.

Status: **partial**. Missing, because it fails: turning the wheel to the right counts as a press of the right button (wheel_clicks, C57); a second read in a frame drops the presses of the first (Frm.second_read_drops, C81); a press where there is nothing to press counts for what comes to be there later, until there is other input (late_click). Reports cut by the end of a frame are in C43 and C64.

* `Clk.clicked_partial`: : a program has things to press with the mouse. The mouse is moved, pressed, released and turned, and keys are typed, in any mixture; their bytes arrive in frames, some with input and some without, the bytes of a frame in pieces cut anywhere. After any number of frames the client has counted for each thing exactly the presses of its button in its box. Missing, because it fails: the wheel's way to the right (`wheel_clicks`), a frame with two reads (`Frm.second_read_drops`), and things that come to be where something was pressed before (`late_click`).
* `Clk.clicked_frame_partial`: , the frames that a client sees: what it counts is what was pressed, and it has the rest, in order.
* `Clk.press_iff`: The entry of an act counts for a target just if the act presses it.
* `Clk.wheel_clicks`: Negation for **C137**: the wheel turned to the right over something that is pressed with the right button counts as a press.
* `Clk.late_click`: Negation for **C137**: a press where there is nothing to press counts for what comes to be there later, until something else is read.

### C138 A program that was suspended and continued shows its frames again

Exiting keeps the record in step (C127); entering sets all that the record keeps of a pen and forgets the rest, so the record is in step with whatever terminal there is (C132); a blank screen has nothing to write after erasing.

Status: **partial**. Missing, because it fails: what the frame drew before it was suspended is lost (nap_loses); when the terminal has more cells than before, cells drawn long ago may show in that frame (nap_stale, cf. Direct.stale_cells_shown, C132); if the size cannot be had when entering, nothing is forgotten (Sess.size_error_stale, C127). The terminal's erasing with the background colour or without is taken not to change.

* `Direct.resumed_partial`: : a program whose screen shows what it drew is suspended in a frame, whatever that frame has drawn so far. When it exits, the terminal's rendition is plain and its cursor visible. Whatever others then do with the terminal, also if its size changes, and even if not all could be written when exiting: once the mode is set and the screen entered again, all later frames are shown as drawn. Unless there are more cells than before, the rest of the frame in which it was suspended erases the terminal and hides the cursor, and all later frames are shown as drawn. Partial: what was drawn in the frame before it was suspended is lost (the rest of that frame is taken to draw nothing), and more cells than before may show what was drawn long ago.
* `Direct.nap_loses`: Negation: what was drawn in the frame before the program was suspended is lost: the terminal is only erased.
* `Direct.nap_stale`: Negation: the terminal was narrowed before and is as wide again when the program is continued. In the frame before, nothing was drawn, and nothing is drawn in this one, but the terminal shows what was drawn when it was wide.

### C139 A picture written in lines of text, or a part of it, is on the terminal

Parsing and loading (C26) and sub-bitmaps (C25) give the bits by their coordinates; the frames are those of C135.

Status: **partial**. Missing, because it fails: empty lines before the first that is not empty are accepted but not counted (Bitmap.parse_accepts_uneven, C26); frames that are not drawn anew and take awkward jumps come out wrong (Direct.animation_wrong, C135).

* `Direct.sprites_shown_partial`: : a program that draws parts of pictures written in lines of text, from entering the terminal on, whatever is on the terminal then. Partial: lines before which there are empty ones (`Bitmap.parse_accepts_uneven`), and frames that are not drawn anew and take awkward jumps (see `animation_wrong`).
* `Direct.sprite_made`: Lines that are all `n` patterns wide are a picture, as is every part of it; a terminal that shows the bitmap shows what is written.
* `Direct.sprite_panics`: Lines that are not a picture: the program panics, exactly if the pattern is not of one or two characters or a line after the first is not as wide.

### C140 Sequences that print alike are written alike

The builder keeps its arguments (C09); no name with a quote behind it is the beginning of another such (all names compared); the rest is injectivity of quoting.

Status: **proved**. fmt's %q is a parameter, of which it is assumed that quoted strings begin with a double quote and tell what was quoted, and that quoted runes begin with a single quote and none is the beginning of another. Other sequences than control sequences may be written alike and print differently: ESC with the arguments [ and 1 and the final m is CSI 1 m (esc_like_csi).

* `printed_tells`: : sequences that print alike have the same identifier and the same arguments, and so are written alike. Printing never panics.
* `seq_string`: What is printed of a sequence: the name of its identifier and, quoted, all its argument bytes and numbers, in the order in which they were given.
* `written_prints`: And control sequences that are written alike print alike.
* `esc_like_csi`: Not so others: an escape sequence with a bracket for an argument is written like a control sequence.

### C141 Telemetry is written to the chosen file, and files that are left are closed

Files by name and handles with offsets; an invariant that only the chosen handle is open and at the end of its file; closed handles stay.

Status: **partial**. Missing, because it fails: choosing the chosen file again while something is logged leaves zeros in the file in front of the text, because it is emptied before the lock is taken (same_name_spoils); when closing the old file fails, the collector keeps the closed handle, and from then on nothing is ever written and every choice is refused, after emptying the file that was chosen (stuck_after_close). Files are known by name.

* `TFile.telemetry_written_partial`: **Telemetry is written where it should be.** Files being chosen one after the other, some of which cannot be created, texts being logged at any time, also while a file is chosen, and each text getting through in full or in part: every file holds exactly what was logged while it was chosen last, in order, other files are untouched, and exactly the chosen file is open.
* `TFile.same_name_spoils`: **Choosing the chosen file again can spoil it.** The file is emptied before the lock is taken: a text logged just then is written where the old text ended, after zeros.
* `TFile.stuck_after_close`: **After a file could not be closed, telemetry is never written again.** The collector keeps the closed handle: whatever is logged and chosen from then on, nothing is written to any file (files that are chosen are emptied, all the same), the next file is refused too, and nothing is open.

### C142 The overlay, over what the client draws, is what the terminal shows

C99 for the virtual screen, C132's frame and the flush of C131 for the terminal; the overlay's characters are printable.

Status: **partial**. Missing, because it fails: screens without room for the header (C91) or the log (C98), jumps that Cursor.To gets wrong and coloured erasing (C31, C32), clients that do not begin by positioning (C132). With open panels the terminal shows what they leave on the virtual screen (overlay_any_shown), which is what C104 and C122 to C124 say.

* `Direct.overlay_shown_partial`: : a frame of a program with the overlay visible and its panels closed. There is a blank page, such that after the flush the terminal shows what the client draws on it, and over that the header and the log, in the style the client ended with. The client is given the events of the frame but Ctrl-K, and presses on the header and turns of the wheel over the log are taken from what it leaves.
* `Direct.overlay_any_shown`: : whatever is open in the overlay, what it leaves on the virtual screen, if it can be drawn at all, is what the terminal shows after the flush.
* `Direct.overlay_hidden`: : hidden, the overlay is not there: the frame is the client's.
* `Direct.overlay_empties`: The overlay ends with a write.

### C143 While the demo runs, the terminal shows the colours of its cells

C105 for the screen and the flush of C131 for the terminal; in every frame all cells that differ are those of the first row.

Status: **partial**. demo_seen says what is on the terminal at any size, and demo_shown_partial proves the claim for one row. For two rows and more it is false (demo_unseen): all rows are written at the first (C105), so the first row shows the last one's colours and the others are blank. Missing: frames in which it is suspended, changes of size (C105 says what the screen has then), redraws on terminals whose erasing colours (C32).

* `Direct.demo_seen`: : on a terminal of any size, whatever it shows at first, and whatever others write on it if a redraw is asked for: after every frame of the demo until Ctrl-C the first row is coloured as the last was meant to be, with the ruler in it if that has one, the other rows are blank, and no cursor is seen.
* `Direct.demo_shown_partial`: on a terminal of one row: every cell has the colour that tells its place. Missing: several rows, where it is false (`demo_unseen`), frames after Ctrl-Z, changes of size, and redraws where erasing colours.
* `Direct.demo_unseen`: **C143 fails** on every terminal of two rows or more: in no frame has any cell below the first row its colour.
* `Direct.demo_frame_shown`: , a frame: whatever keys but Ctrl-C and Ctrl-Z there are, it is drawn, flushed and then seen.

### C144 How the interactive commands end, and with which status

The frame and its errors of C79, the input of C129, the status of C112; a run that goes on after some frames is a run from where it then is.

Status: **partial**. It holds for demo and interact. lolwut violates it: Ctrl-C and the end of the input end it with status 1 and an error in the log (lolwut_interrupt_fails, once_status). Missing: input cut inside a character (C129), reads that fail, and, at the end of the input or a signal, a later read in the same frame that waits for ever.

* `Cmd.typed_interrupt_status`: as a whole, for demo and interact: from the start of the last run, if what is typed before is typed whole and ends nothing, and then Ctrl-C is, the process ends with status 0.
* `Cmd.interrupt_ends`: : Ctrl-C, typed whole at any time among anything else, ends a run with `errInt`, whatever was typed before.
* `Cmd.eof_ends`: : the end of the input ends a run with `io.EOF`, whatever was read before and with it.
* `Cmd.signal_ends`: : a signal to stop ends a run with its error.
* `Cmd.loop_status`: : demo and interact run again after a replay is done, for as long as it takes, and end with the status of the first run that ends otherwise.
* `Cmd.interrupt_status`: : so, when Ctrl-C is typed, demo and interact end with status 0; but lolwut ends with status 1.
* `Cmd.signal_code`: , and it is so that the status of a signal is 256 less its number.
* `Cmd.demo_obeys`: : the demo is a client that returns `errInt` exactly on Ctrl-C, and never panics.
* `Cmd.demo_interrupts`: , the keys: the demo returns its `errInt` exactly when there is a Ctrl-C among the events.
* `Cmd.lolwut_interrupts`: , the keys of lolwut.
* `Cmd.interact_interrupts`: , the keys of interact.
* `Cmd.once_status`: : lolwut ends with status 1 whatever its run returns, but for signals; also when the user or the end of the input ends it.
* `Cmd.lolwut_interrupt_fails`: , lolwut violates it: with the same keys the process ends with status 1.

### C145 While lolwut runs, the terminal shows its squares dot for dot

The update of C109 gives the canvas, C135 the cells, the flush of C131 the terminal.

Status: **partial**. Missing, because it fails: frames of which only the changes are written, if the jumps between them are those that Cursor.To gets wrong (C135's animation_wrong); the rows that a terminal gains when only its height changes stay blank (C109's taller_blank; lolwut_shown_partial says which cells the picture covers). What is computed in floating point is given from outside.

* `Direct.lolwut_shown_partial`: : lolwut with -i, from entering the terminal on, whatever is on it then, with squares of any size (20 dots at first, `interact.go:20`) and a canvas of any size. Partial: frames that are not drawn anew and take awkward jumps (`animation_wrong`), and the rows that a higher terminal gains stay blank (`Lol.taller_blank`).
* `Direct.lol_frame`: What a frame of lolwut leaves, and shows when it is flushed.
* `Direct.lol_update`: An update of lolwut on a whole screen.

### C146 While interact runs, the terminal shows its words and what came of running them

idle_left tells what a frame leaves in the buffer; the cells of C130 are turned into glyphs and flushed by C131; the negation goes by induction over frames.

Status: **partial**. Violated: when the last word has a style, i.e. is a variable or the only word, as in `interact ls`, nothing is ever shown while the overlay is hidden (interact_unseen, for any frames in which no word is pressed, with or without redraws): ending the style leaves a sequence in the buffer, which WriteTo takes for the rest of an earlier flush (C35). Otherwise interact_shown holds; as in C135, frames of which only the changes are written must not take the jumps that Cursor.To gets wrong. The output is a single line that fits (C130).

* `Direct.interact_shown`: : a frame in which no word is pressed or edited, of a command whose last word has no style: the terminal shows the words and the output area, with the cursor hidden. Nothing is run.
* `Direct.outcome_filled`: , the output area after a run: the status, the error in red and the output.
* `Direct.interact_unseen`: , negation of the rest: `interact` with a command of one word, or whose last word is a variable, never shows anything while the overlay is hidden, from its start on, as long as no word is pressed: the sequence that ends the style of the last word is left in the buffer, and `WriteTo` takes it for the rest of an earlier flush (`screen.go:113-116`). Redraws do not help.
* `Itr.idle_left`: What a frame in which no word is pressed or edited leaves in the buffer: if the last word has a style, the sequence that ends it.

### C147 Points scale, and are told apart by their text

Int.tdiv facts; the text is split at its comma and bracket, and decimal notation is injective.

Status: **proved**. div_exact leaves out the one quotient that does not fit, that of the least integer by -1.

* `Geom.mul_exact`: , scaling up: both coordinates are multiplied exactly if the products fit, and not otherwise.
* `Geom.div_exact`: , scaling down: the quotient by zero panics. By any other number it is the coordinate's, rounded towards zero: of the same sign as the exact quotient, and short of it by less than one. Only the least number by -1 is not.
* `Geom.mul_div`: : scaling down undoes scaling up, if that was exact.
* `Geom.scaled_valid`: : a point of the screen scaled up by a positive number is one; scaled down it is one if it was that far from the edges.
* `Geom.diff_leads`: : the difference of two points leads from one to the other, and adding and subtracting undo each other.
* `Geom.eq_points`: : equality of points is that of both coordinates.
* `Geom.text_form`: , the text of a point and of a rectangle.
* `Geom.text_tells`: : points, and rectangles, with the same text are the same.

### C148 With the overlay visible interact shows every command; hiding it again must show the command alone

Composition of idle_shown (C130) with shown_partial (C99) and flushed (C132); idle_after says what the frame leaves to the overlay.

Status: **partial**. The first part is proved, for frames whose jumps are not those that Cursor.To gets wrong (C31) and without coloured erasing (C32). The last part is violated: if the last word has a style, as in `interact ls`, nothing of the frame that hides the overlay is flushed, and the terminal goes on showing the overlay (overlay_stays). With open panels the terminal shows what they leave on the virtual screen (overlay_any_shown, C142, which holds for any client). Missing: an edit in a line of words that fills the row to its last column but one.

* `Direct.interact_over_shown`: : a frame of `interact`, of whatever command, with the overlay visible and its panels closed, in which no word is pressed or edited: the terminal shows the overlay's header and log, in no style, and beneath them the words and the output area; the cursor is hidden. Nothing is run, and presses on the header and the log are the overlay's.
* `Direct.interact_over_edit`: , while a value is edited and its text is not empty, the overlay being visible and its panels closed: the terminal shows the overlay's header and log, in no style, and beneath them the text over the name of the variable, the words around it, the output area, and the cursor in the text, whether or not the last word has a style. Nothing is run.
* `Direct.interact_over_empty`: , while a value is edited and its text is empty: the terminal shows what it would show without the edit, and the cursor where the name begins.
* `Direct.overlay_stays`: , negation of the rest: when the overlay is hidden again and the last word of the command has a style, nothing of the new frame reaches the terminal, which goes on showing the overlay, or whatever it showed.
* `Itr.idle_after`: What a frame in which no word is pressed or edited leaves besides the screen: presses on words and Ctrl-Z are taken from the events, everything written was processed, and there is no style.

### C149 While a value is edited in interact, the terminal shows the text, the cursor, the words and the output

edit_core: the words are drawn, then the line on the screen they leave; write_settled for the buffer; flushed (C132) for the terminal.

Status: **partial**. The frames in which the text is not empty are proved to be shown, without the jumps that Cursor.To gets wrong (C31) and without coloured erasing (C32). The rest is violated: a frame whose text is empty, as when the edit of a variable without a value begins, writes nothing but the end of a style (edit_begins_unseen); so does the frame in which Enter or Escape ends the edit, and the terminal goes on showing it (edit_ends_unseen); and behind a text shorter than the name stands the rest of the name (edit_residue), so that different texts show the same characters (edit_alike). A variable that is not the last word is proved too: if the last word is not a variable, every frame of the edit is shown, that with an empty text included (interact_aside_shown, interact_aside_empty); but the words after the text do not keep their places, they are written from the end of the text on (aside_moved), and if the last word is another variable none of the edit is shown (aside_unseen). The frame in which Enter gives such a variable its value shows the new output but the old value (aside_ends_stale), or, if the last word is another variable, nothing (aside_ends_unseen). Missing: a line of words that fills the row to its last column but one.

* `Direct.interact_edit_shown`: : while the value of the last word is edited and its text is not empty, the frame is shown: the text over the name of the variable, the other words, the output, and the cursor.
* `Direct.edit_begins_unseen`: , where it fails: while the text is empty, as it is when the edit of a variable without a value begins, the frame writes the end of a style and nothing else; neither the words nor the cursor are shown.
* `Direct.edit_ends_unseen`: , where it fails: when Enter takes the text, or Escape drops it, the frame writes the end of a style and nothing else: the terminal goes on showing the text being edited, and the cursor in it.
* `Direct.edit_alike`: , where it fails: behind a text shorter than the name the rest of the name is still to be seen, so that by the characters shown one text cannot be told from another: every beginning of the name, with the cursor before it, looks like the name.
* `Direct.edit_residue`: , where it fails: behind a text shorter than the name, and the cursor not at its end, stands the next character of the name.
* `Itr.edit_drawn`: A frame in which the last word is a variable whose value is edited, and the edit goes on: the screen.
* `Direct.interact_aside_shown`: : while the value of a variable before the last word is edited, its text is not empty, and the last word is not a variable, the frame is shown: the text over the name of the variable, the words that follow directly behind it, the output, and the cursor.
* `Direct.interact_aside_empty`: : while such a text is empty, the frame is shown as it would be without an edit, with the cursor at the beginning of the name.
* `Direct.aside_unseen`: , where it fails: while the value of a variable is edited and the last word is another variable, the frame writes the end of a style and nothing else, whatever is typed.
* `Direct.aside_moved`: , where it fails: the words that follow a text being edited do not keep their places; they begin behind the part of the text that is shown, wherever that ends.
* `Itr.edit_drawn_any`: A frame in which a variable is edited, and the edit goes on: the screen.
* `Direct.aside_ends_stale`: , where it fails: the frame in which Enter gives a new value to a variable before the last word, the last word not being a variable, is shown, and its output area is that of the new values, but the value in the row of words is the old one; there it is seen with the next frame.
* `Direct.aside_ends_unseen`: , where it fails: if the last word is another variable, the frame in which Enter or Escape ends the edit writes the end of a style and nothing else.
* `Itr.edit_ends_aside`: A frame in which Enter or Escape ends the edit of a variable before the last word: the screen has the words as they were before the frame, and the output area as it is after it.

### C150 Cursors, screens, events and the overlay's header print what they hold

Each part ends before a byte that it does not contain; split there, from the left or from the right, and use that points (C147), styles (C101) and mouse states (C107) are told apart by their texts.

Status: **partial**. Proved for cursors, screens and sequences. For mouse events it is violated by the fourth direction of the wheel, which is named as the right button (mouse_text_wrong, C107), and proved for all others. Escapes are the controls, escape and control sequences; runes that are stored as such are quoted by fmt and left out. The attributes of a cursor are those of a style, i.e. a colour has bits only if it is set.

* `cursor_text`: , the text of a cursor: its place, the words of its style, and whether it is visible.
* `cursor_tells`: : cursors print alike just if they are at the same place, in the same style, and both visible or both not. Whether a style or the visibility is known is not printed.
* `screen_tells`: : screens print alike just if their cursors do and their grids have the same bounds.
* `Evq.mouse_tells_partial`: , mouse events: they always have a text, which is the name of what was done, and where. Two events print alike just if they are the same, but for the fourth direction of the wheel, which is named as the right button (`Mouse.wheel_right_named_right`).
* `Evq.mouse_text_wrong`: , the exception: turning the wheel to the right prints as a press of the right button.
* `Evq.escape_tells`: , escape and control sequences: the text has the sequence's name and its argument, and those of two sequences are alike just if the sequences are the same.
* `Hud.flushed_text`: , the number of bytes flushed: after `W:` the digits, with blanks before them, one at least, up to five characters.
* `Hud.size_text`: , the size of a screen of `w` columns and `h` rows.
* `Hud.header_tells_partial`: , the left half of the header, as it is read in its row, with one blank after each segment: it tells the last mouse event, the number of bytes flushed and the size of the output, whatever comes after.
* `Hud.header_printable`: : these three segments are made of characters that can be drawn, as the theorems about the overlay ask for.

### C151 The overlay's clock and profiling sign tell the time and the profiling, and the header does not move with them

Digits of fixed width are in the order of the numbers, by induction on the width; compare hours, minutes, seconds and microseconds one after the other. Places depend only on the lengths of the texts.

Status: **proved**. Go's time.Time.Format is written down from its documentation for this one layout; a time is the nanoseconds since midnight. The frame rate, whose text is of floating point, is a parameter: the header does move with its width.

* `Hud.clock_text`: : the clock has two digits of hours, minutes and seconds each and six of microseconds; together they are the time of the day, cut off to microseconds.
* `Hud.clock_tells`: : two clocks of a day read the same just if the times agree to the microsecond.
* `Hud.clock_order`: : within a day the clocks are in the order of the dictionary just as the times are.
* `Hud.prof_tells`: : the profiling segment is one character, which tells whether there is profiling, and if so, the quarter of the second; it never fails.
* `Hud.header_stays`: : the header does not move with the time or the profiling: for two times, and two states of the profilers, and the same other texts, the segments are at the same places, where they are pressed, and take the same room; outside the clock and the sign the same characters are shown.
* `Hud.header_ready`: : the header as it is made in a frame can be drawn, as the theorems about the overlay ask for: none of its six texts is empty, all their characters are printable if the signs for profiling and those of the frame rate are, and the room it takes is known.

### C152 The overlay only takes events, and without a press it changes nothing

Taking is reflexive and transitive, so go through the controls one by one; without a press each count is zero and each control is the identity.

Status: **proved**. For frames that do not panic; where the panels panic on narrow or low screens is C142 and others. What is drawn is not said here. The client has its frame first (hud.go:84), so it is given the keys that are typed into a control of the overlay as well.

* `Hud.panels_take`: : whatever is open, active or being typed in the panels, a frame of them adds no event, leaves none out and changes none other than by taking it, and keeps their order; of those of the mouse it takes only presses of the left button.
* `Hud.panels_quiet`: : without a press of the left button and with no control active, the panels change nothing: no event is taken, neither a key nor a turn of the wheel, no panel opens or closes, nothing is switched, paused, started, stopped, added or created, and recording is not asked for.
* `Hud.overlay_takes`: : the whole overlay, visible or not, around any client, with the panels as its details: of the events the client leaves, in their order, each is left as it is or taken, and of those of the mouse only presses of the left button and turns of the wheel are.
* `Hud.overlay_quiet`: : if no control is active and the client leaves no press of the left button, the overlay takes nothing but turns of the wheel, over its log, opens and closes nothing, and makes no control active; its error is that of the client.
* `Hud.still_frames`: : over any number of frames without a press of the left button, no control becomes active and no panel opens or closes, and the overlay is shown or hidden by nothing but Ctrl-K.

### C153 In any state the overlay's panels only add files and profiles, and only where they can be

What one control can do to the state composes; go through the controls one by one.

Status: **proved**. For frames that do not panic. That a profile can be added twice by two presses in one frame is in C94. Controls are known by the order they are drawn in, so the control that is active may be another than in the frame before (C93).

* `Hud.panels_adds`: : in any state, a frame of the panels: files are asked for in addition to those there are, with a name, and only for the log of telemetry, if its panel is open, or for profilers that have files of their own, if theirs is; profiles are added to those there are, each an available one that was not there; a profiler is started only if it does not run and stopped only if it does; and a control that becomes active is one that is drawn in this frame.
