{
 "claims": [
  {
   "property": "C01",
   "status": "partial",
   "theorems": [
    "Anansi.Sgr.sgr_roundtrip_partial",
    "Anansi.Sgr.sgr_conceal_lost"
   ],
   "note": "Round trip proved for every style without Conceal; the code drops code 8 on decode (negation proved). The empty style encodes as a reset."
  },
  {
   "property": "C02",
   "status": "proved",
   "theorems": [
    "Anansi.Sgr.sgr_merge_diff",
    "Anansi.Sgr.sgr_diff_self"
   ],
   "note": ""
  },
  {
   "property": "C03",
   "status": "proved",
   "theorems": [
    "Anansi.Sgr.set_fg",
    "Anansi.Sgr.set_bg",
    "Anansi.Sgr.sans_fg",
    "Anansi.Sgr.sans_bg",
    "Anansi.Sgr.build_reads_back",
    "Anansi.Sgr.colour_value_injective"
   ],
   "note": ""
  },
  {
   "property": "C04",
   "status": "proved",
   "theorems": [
    "Anansi.Sgr.sgr_size_exact",
    "Anansi.Sgr.sgr_size_stray_bit"
   ],
   "note": "sgr_size_stray_bit shows the quantifier (defined fields only) is needed."
  },
  {
   "property": "C05",
   "status": "partial",
   "theorems": [
    "Anansi.decodeNumber_exact_partial",
    "Anansi.decodeNumber_error_iff",
    "Anansi.decodeNumber_never_reports_range",
    "Anansi.decodeNumber_overflow_witness",
    "Anansi.decodeNumber_negative_witness"
   ],
   "note": "Exact for values up to 1<<63-1; the code wraps instead of reporting a range error (negation proved)."
  },
  {
   "property": "C06",
   "status": "proved",
   "theorems": [
    "Anansi.point_roundtrip"
   ],
   "note": ""
  },
  {
   "property": "C07",
   "status": "proved",
   "theorems": [
    "Anansi.csi_roundtrip",
    "Anansi.csi_roundtrip_c1"
   ],
   "note": ""
  },
  {
   "property": "C08",
   "status": "partial",
   "theorems": [
    "Anansi.esc_roundtrip_partial",
    "Anansi.charset_not_roundtrip",
    "Anansi.esc_tilde_lost"
   ],
   "note": "Character-set selections do not round trip in the code (negation proved)."
  },
  {
   "property": "C09",
   "status": "proved",
   "theorems": [
    "Anansi.seq_build_csi",
    "Anansi.seq_build_esc",
    "Anansi.seq_build_c0",
    "Anansi.seq_build_panics"
   ],
   "note": "seq_build_panics records where building panics."
  },
  {
   "property": "C10",
   "status": "partial",
   "theorems": [
    "Anansi.escSize_ge",
    "Anansi.seqSize_ge_partial",
    "Anansi.seq_size_too_small"
   ],
   "note": "The bound fails for some sequences (negation proved)."
  },
  {
   "property": "C100",
   "status": "partial",
   "theorems": [
    "Anansi.Gln.lines_roundtrip_partial",
    "Anansi.Gln.lines_faithful_partial",
    "Anansi.Gln.line_read",
    "Anansi.Gln.lines_printed",
    "Anansi.Gln.ctls_printed",
    "Anansi.Gln.control_panics",
    "Anansi.Gln.escape_panics",
    "Anansi.Gln.ragged_panics",
    "Anansi.Gln.empty_panics",
    "Anansi.Gln.rows_partial",
    "Anansi.Gln.sub_rows_overrun",
    "Anansi.Gln.runes_lines_stick",
    "Anansi.Gln.conceal_lost",
    "Anansi.Gln.c1_cells_lost"
   ],
   "note": "The round trip is proved for non-empty grids without the concealed rendition and without control characters; those are lost or panic, no lines and empty lines panic, and GridRowData of a part of a grid returns cells outside of it or panics (all proved). RunesToLines overwrites the grid's empty cells (proved)."
  },
  {
   "property": "C101",
   "status": "proved",
   "theorems": [
    "Anansi.Sgr.attr_printed",
    "Anansi.Sgr.colour_printed",
    "Anansi.Sgr.colour_names_differ",
    "Anansi.Sgr.attr_names_differ"
   ],
   "note": "For attribute values built from renditions and colours, which is what the constructors and DecodeSGR give."
  },
  {
   "property": "C102",
   "status": "partial",
   "theorems": [
    "Anansi.Dcm.decoded_partial",
    "Anansi.Dcm.sgr_noted",
    "Anansi.Dcm.stripped_partial",
    "Anansi.Dcm.c1_kept",
    "Anansi.Dcm.split_rune",
    "Anansi.Dcm.split_escape",
    "Anansi.Dcm.cancel_replaced",
    "Anansi.Dcm.bad_string_blocks",
    "Anansi.Dcm.exit_fails",
    "Anansi.Dcm.must_run",
    "Anansi.Dcm.interactive",
    "Anansi.Dcm.interactive_stops",
    "Anansi.Dcm.clear_says_quit"
   ],
   "note": "Proved for cuts between items and inside sequences behind their introducers. Characters split by reads are replaced, an ESC at the end of a read leaks, C1 controls are not stripped, a cancelled sequence leaves a replacement character, an invalid byte in a string blocks all further output, and the end of the input makes the program exit with failure (all proved). The texts of package fmt are parameters."
  },
  {
   "property": "C103",
   "status": "partial",
   "theorems": [
    "Anansi.Itr.shows_present",
    "Anansi.Itr.starts_empty",
    "Anansi.Itr.values_edited",
    "Anansi.Itr.runs_on",
    "Anansi.Itr.idle",
    "Anansi.Itr.value_never_emptied",
    "Anansi.Itr.resize_reruns",
    "Anansi.Itr.cancel_reruns",
    "Anansi.Itr.empty_panics",
    "Anansi.Itr.small_screen_panics",
    "Anansi.Itr.last_row_unused",
    "Anansi.Itr.setCmd_forgets"
   ],
   "note": "Proved for every command line and every sequence of updates that does not panic; with a command and enough rows none does. Defects (proved): an empty command line panics with the first update that has room, a screen with too few rows panics, giving up an edit and a change of size alone run the command again, a value cannot be emptied, and the last row of the screen is never used. What is pressed and what the edit line makes of the input are arbitrary here; C130 has the screen and the events, and proves that its frames are frames of this model."
  },
  {
   "property": "C104",
   "status": "partial",
   "theorems": [
    "Anansi.Hud.timing_drawn",
    "Anansi.Hud.pause_drawn",
    "Anansi.Hud.record_drawn",
    "Anansi.Hud.short_record_dead",
    "Anansi.Hud.narrow_timing_panics"
   ],
   "note": "Proved for every screen with ten columns beside the values and four rows from the cursor on. Defects (proved): on a screen one row too short the two buttons fall on each other and recording cannot be switched, and a screen too narrow for the names panics. The texts of the times are given from outside, as strings that fit their column."
  },
  {
   "property": "C105",
   "status": "partial",
   "theorems": [
    "Anansi.Dem.pattern_shown_partial",
    "Anansi.Dem.frame_drawn",
    "Anansi.Dem.shows_one_row",
    "Anansi.Dem.rows_missing",
    "Anansi.Dem.narrower_shows_stale",
    "Anansi.Dem.keys_exact",
    "Anansi.Dem.row_panics_iff"
   ],
   "note": "The keys are proved in full. The picture holds on screens of one row only. Defect (proved): the column is not reset before the offset of a row is looked up, so the lookup fails for every row after the first and each row is written over the first one; on every screen of more rows the first row shows what is meant for the last row and all other rows are blank, and after the screen has become narrower they show leftovers."
  },
  {
   "property": "C106",
   "status": "partial",
   "theorems": [
    "Anansi.Susp.suspend_safe",
    "Anansi.Susp.suspend_errors",
    "Anansi.Susp.suspend_returns_partial",
    "Anansi.Susp.wakeup_lost",
    "Anansi.Susp.failed_kill_leaves"
   ],
   "note": "Safety and errors are proved in full. Defect (proved): the channel given to signal.Notify has no buffer and os/signal does not wait when it sends, so a SIGCONT that is handed on before the goroutine has reached the receive is lost, and the call hangs, with the process running and the terminal left, until another SIGCONT; the return is proved for a signal that comes while the goroutine waits. When the signal to stop cannot be sent the terminal is not entered again."
  },
  {
   "property": "C107",
   "status": "partial",
   "theorems": [
    "Anansi.Mouse.report_name_partial",
    "Anansi.Mouse.name_tells_partial",
    "Anansi.Mouse.name_total",
    "Anansi.Mouse.wheel_right_named_right"
   ],
   "note": "Proved for all states but those of the fourth direction of the wheel. Defect (proved): these have the names of the right button, for all modifiers, since ButtonID gives them its number."
  },
  {
   "property": "C108",
   "status": "partial",
   "theorems": [
    "Anansi.Thru.update_through_partial",
    "Anansi.Thru.writeGrid_through_partial",
    "Anansi.Thru.through_exact",
    "Anansi.Thru.overlong_panics",
    "Anansi.Thru.state_regardless",
    "Anansi.Thru.failed_never_shown",
    "Anansi.Thru.applyTo_through_partial"
   ],
   "note": "Numbers and errors are proved in full, the display under the conditions of C32. Defect (proved): the state returned is that of a complete update however much was written, so trying once more with it writes nothing of what was lost."
  },
  {
   "property": "C109",
   "status": "partial",
   "theorems": [
    "Anansi.Lol.draw_picture",
    "Anansi.Lol.frame",
    "Anansi.Lol.picture_shown_partial",
    "Anansi.Lol.taller_blank",
    "Anansi.Lol.one_row_empty",
    "Anansi.Lol.frames_run",
    "Anansi.Lol.setup_picture",
    "Anansi.Lol.setup_too_many"
   ],
   "note": "The shifts and corners, which the code computes in floating point, are arbitrary here. Defects (proved): a frame compares only the width of the screen with the canvas, so after a change of height alone the rows that were gained stay blank and the squares are not counted anew until the wheel is turned or the width changes; and the padding is chosen by the width but taken off the height, so a screen of one row and more than two columns shows no squares at all. If more squares are asked for than there are dots, the static picture has squares without extent."
  },
  {
   "property": "C11",
   "status": "proved",
   "theorems": [
    "Anansi.text_faithful",
    "Anansi.bytes_faithful",
    "Anansi.bytes_parse"
   ],
   "note": ""
  },
  {
   "property": "C110",
   "status": "partial",
   "theorems": [
    "Anansi.Styled.styled_full_partial",
    "Anansi.Styled.styled_diff_partial",
    "Anansi.Styled.written_whole",
    "Anansi.Styled.coloured_blank_lost",
    "Anansi.Styled.styled_away_stale"
   ],
   "note": "Proved for styled cells that can be drawn (as in C32) and jumps of the cursor that the terminal follows. Defects (proved): with styles that make blanks of nothing, a full redraw does not write blanks at all and drops their attributes; with styles that make something of nothing, a differential update to a cell that is styled to nothing writes nothing, and what was there stays."
  },
  {
   "property": "C111",
   "status": "partial",
   "theorems": [
    "Anansi.Pnw.new_exact",
    "Anansi.Pnw.new_uses",
    "Anansi.Pnw.new_panics_iff",
    "Anansi.Pnw.failed_leaves_open",
    "Anansi.Pnw.pointer_overridden"
   ],
   "note": "Given that Term.Notify and closing the old log file succeed. Defects (proved): a *Config, which is an Option, too, does not keep the flags of the command line from being used, and they win over it; files opened before an error stay open (the platform that holds them is not returned); a frame rate that is not positive panics rather than being an error."
  },
  {
   "property": "C112",
   "status": "partial",
   "theorems": [
    "Anansi.Pnw.mustRun_status",
    "Anansi.Pnw.signal_status",
    "Anansi.Pnw.reported_partial",
    "Anansi.Pnw.status_zero",
    "Anansi.Pnw.error_only_in_memory",
    "Anansi.Pnw.setup_error_lost"
   ],
   "note": "Defects (proved): without a log file the error of a program that uses the platform is not reported at all, since the log goes to memory only; if the platform cannot be set up after its log file was opened, the error is not in that file either, as the worker that would write it is never told to; a code that is a multiple of 256 ends the process with status 0."
  },
  {
   "property": "C113",
   "status": "partial",
   "theorems": [
    "Anansi.Rpl.marked",
    "Anansi.Rpl.unmarked",
    "Anansi.Rpl.marks_differ",
    "Anansi.Rpl.mark_white_on_white"
   ],
   "note": "Which frames are played when is C73. Defect (proved): the mark for no button is white on white, so its X cannot be seen, only a white block."
  },
  {
   "property": "C114",
   "status": "partial",
   "theorems": [
    "Anansi.Frm.run_live",
    "Anansi.Frm.replay_shows",
    "Anansi.Frm.paused_shows",
    "Anansi.Frm.paused_step",
    "Anansi.Frm.replay_done",
    "Anansi.Frm.error_lost",
    "Anansi.Frm.signals_ignored",
    "Anansi.Frm.stop_live",
    "Anansi.Frm.size_stays",
    "Anansi.Frm.keys_replayed_iff",
    "Anansi.Frm.replay_shows_keys"
   ],
   "note": "Proved what every frame of a replay shows and how Ctrl-C ends it; without a replay runs are those of C79-C81 and C96. Defects (proved): signals to stop and read errors are ignored while a replay goes on; after Ctrl-C the screen keeps the recorded size until Ctrl-L or a change of size; the replayed client gets Ctrl-L and Ctrl-R, which the platform took from the live one."
  },
  {
   "property": "C115",
   "status": "partial",
   "theorems": [
    "Anansi.Rst.started",
    "Anansi.Rst.restored_iff",
    "Anansi.Rst.new_client_restored",
    "Anansi.Rst.failed_keeps",
    "Anansi.Rst.again_partial",
    "Anansi.Rst.zero_not_restored",
    "Anansi.Rst.mark_left",
    "Anansi.Rst.paused_left"
   ],
   "note": "The platform's own state is restored always, a client that is made anew always; gob is modelled as sending the fields that are not zero. Defects (proved): fields of the client that were zero when saved keep their present values; a replay that is run again keeps the mouse's mark of the last pass, and, if it was paused at its end, starts paused there."
  },
  {
   "property": "C116",
   "status": "partial",
   "theorems": [
    "Anansi.Rpl.duration_partial",
    "Anansi.Rpl.duration_single",
    "Anansi.Rpl.duration_max",
    "Anansi.Rpl.string_no_bytes",
    "Anansi.Rpl.string_mark_partial"
   ],
   "note": "Formats of times and quoting are given. Defects (proved): the first frame of a recording that is read back has no time, so that the duration is always the largest there is, 292 years; the text of a frame shows the message in place of the bytes."
  },
  {
   "property": "C117",
   "status": "proved",
   "theorems": [
    "Anansi.Opn.opens",
    "Anansi.Opn.fails",
    "Anansi.Opn.opens_iff",
    "Anansi.Opn.standard"
   ],
   "note": "Whether a file is a terminal and whether opening succeeds is given. That log output is redirected, as the comment says, is not done."
  },
  {
   "property": "C118",
   "status": "partial",
   "theorems": [
    "Anansi.Pal.listing",
    "Anansi.Pal.set_spec",
    "Anansi.Pal.all_listed",
    "Anansi.Pal.columns_partial",
    "Anansi.Pal.shifted",
    "Anansi.Pal.themes_shifted",
    "Anansi.Pal.quote_read"
   ],
   "note": "The listing, its samples, its quoted controls and the models are proved in full. Columns: those of numbers below 100 are at the same places, those from 100 on one further right. Defects (proved): line 100 is one column off line 99; with themes by the model id, the columns depend on the length of the controls. The first two lines are shown in the rendition the terminal had (part of the specification)."
  },
  {
   "property": "C119",
   "status": "partial",
   "theorems": [
    "Anansi.Tel.frames_run",
    "Anansi.Tel.timing_never_logged",
    "Anansi.Tel.timing_logged_partial",
    "Anansi.Tel.zeros_logged",
    "Anansi.Tel.late_lost",
    "Anansi.Tel.panel_afresh",
    "Anansi.Tel.pause_counted",
    "Anansi.Tel.measured_iff"
   ],
   "note": "Proved for the telemetry's own switch set by the client. Defects (proved): the configuration and the overlay set Config.LogTiming, which Telemetry.update does not read, so that nothing they do logs timing; switching the panel off in the frame that ends a round logs zeros; a worker late by a round loses a round; with logging asked for by the configuration, the time the panel was off counts as a frame."
  },
  {
   "property": "C12",
   "status": "proved",
   "theorems": [
    "Anansi.decodeEscape_bounds",
    "Anansi.decodeEscape_empty_panics",
    "Anansi.processAux_fuel",
    "Anansi.process_eq"
   ],
   "note": "decodeEscape_empty_panics shows the non-empty precondition is needed."
  },
  {
   "property": "C120",
   "status": "partial",
   "theorems": [
    "Anansi.Tel.stalls_counted",
    "Anansi.Tel.stalls_logged",
    "Anansi.Tel.stall_logged_partial",
    "Anansi.Tel.switched_logged",
    "Anansi.Tel.untracked_nothing",
    "Anansi.Tel.untimed_nothing",
    "Anansi.Tel.stall_logged_again",
    "Anansi.Tel.stall_lost",
    "Anansi.Tel.share_above_all"
   ],
   "note": "What is shown is proved in full while timing is on; what is logged exactly. Defects (proved): with timing off nothing is shown or logged; asked to log stalls, nothing is logged unless they are tracked by the panel, and a loaded state that says they are tracked does not track them; a stall is logged again in each frame to the end of the round, or not at all when the frame that ends the round stalls; the share divides the stalls of a round by the time of one frame."
  },
  {
   "property": "C121",
   "status": "proved",
   "theorems": [
    "Anansi.Tel.usage_apart",
    "Anansi.Tel.usage_line",
    "Anansi.Tel.line_json"
   ],
   "note": "The data of stalls are under the name stalls, that of the others under data. Errors of writing to the file are not modelled."
  },
  {
   "property": "C122",
   "status": "partial",
   "theorems": [
    "Anansi.Hud.fps_drawn_partial",
    "Anansi.Hud.column_row",
    "Anansi.Hud.column_outside",
    "Anansi.Hud.short_stats_dead",
    "Anansi.Hud.narrow_stats_panic",
    "Anansi.Hud.control_idle"
   ],
   "note": "Proved for screens with room. The code fails elsewhere: on a screen that ends with the first heading all headings are drawn there and neither switch can be turned; with fewer than 17 columns besides the width of values it panics; and the first heading switches a flag that nothing depends on."
  },
  {
   "property": "C123",
   "status": "partial",
   "theorems": [
    "Anansi.Hud.telemetry_drawn_partial",
    "Anansi.Hud.profiling_drawn_partial",
    "Anansi.Hud.profile_added_partial",
    "Anansi.Hud.sign_some",
    "Anansi.Hud.no_create_inert",
    "Anansi.Hud.stack_row",
    "Anansi.Hud.stack_outside",
    "Anansi.Hud.short_tele_dead",
    "Anansi.Hud.narrow_tele_panics",
    "Anansi.Hud.narrow_prof_panics"
   ],
   "note": "Proved for screens with room and frames in which no file is being chosen, and no profile except by one press (C93, C94 are about the rest). The code fails elsewhere: with too few columns both panels panic, and on a screen that ends where the telemetry panel begins all its rows are drawn over one another and neither switch can be turned."
  },
  {
   "property": "C124",
   "status": "partial",
   "theorems": [
    "Anansi.Hud.panels_stacked_partial",
    "Anansi.Hud.overlay_panels",
    "Anansi.Hud.stack_append",
    "Anansi.Hud.stack_row",
    "Anansi.Hud.stack_outside"
   ],
   "note": "Proved for screens with room and frames in which no file or profile is being chosen. On smaller screens the panels fail as C104, C122 and C123 say."
  },
  {
   "property": "C125",
   "status": "partial",
   "theorems": [
    "Anansi.Tin.maps_named_partial",
    "Anansi.Tin.builtin_known",
    "Anansi.Tin.known_builtin",
    "Anansi.Tin.screen_kept_partial",
    "Anansi.Tin.linux_not_kept",
    "Anansi.Tin.screen_cleared",
    "Anansi.Tin.renditions_off",
    "Anansi.Tin.rendition_on",
    "Anansi.Tin.cursor_shown",
    "Anansi.Tin.keypad_switched",
    "Anansi.Tin.mouse_switched"
   ],
   "note": "The Linux console's entry has empty EnterCA and ExitCA, so that what was on the screen is lost (linux_not_kept); proved for the other five. The maps are proved under the conditions under which entries are read rightly (readFrom_partial, C53)."
  },
  {
   "property": "C126",
   "status": "partial",
   "theorems": [
    "Anansi.Tin.keys_decoded",
    "Anansi.Tin.keys_decoded_all",
    "Anansi.Tin.keys_apart",
    "Anansi.Tin.characters_exact_partial",
    "Anansi.Tin.keys_type_letters",
    "Anansi.Tin.arrows_moved_partial"
   ],
   "note": "The keys of xterm and screen that are SS3 sequences, and the first five function keys of the Linux console, are decoded as an escape and then a letter, which counts as typed: F1 types P, Up types A (keys_type_letters). So characters are exact for Eterm and the rxvt entries only, and arrow keys of xterm and screen count as no movement (arrows_moved_partial says which)."
  },
  {
   "property": "C127",
   "status": "partial",
   "theorems": [
    "Anansi.Sess.mode_tells",
    "Anansi.Sess.run_nested",
    "Anansi.Sess.session_restored_partial",
    "Anansi.Sess.screen_exited",
    "Anansi.Sess.screen_resumed",
    "Anansi.Sess.homes_loses_cursor",
    "Anansi.Sess.failed_enter_moves",
    "Anansi.Sess.failed_without_moves",
    "Anansi.Sess.size_error_stale"
   ],
   "note": "Proved for contexts and suspended functions that do not fail, on terminals in the usual state whose soft reset leaves the saved cursor of the main screen alone. Otherwise the code violates it (proved): where a soft reset takes the saved cursor home the cursor is lost; a context that fails before the mode is set, and a function that fails under RunWithout, make the mode be reset when it is not set, which moves the cursor; and SizeToTerm swallows its error so that a screen keeps a stale size."
  },
  {
   "property": "C128",
   "status": "partial",
   "theorems": [
    "Anansi.Flg.spelled_parsed",
    "Anansi.Flg.parsed_spelled",
    "Anansi.Flg.platform_parsed",
    "Anansi.Flg.platform_asked_partial",
    "Anansi.Flg.platform_taken_iff",
    "Anansi.Flg.addFlags_keeps",
    "Anansi.Flg.palette_asked",
    "Anansi.Flg.decode_asked",
    "Anansi.Flg.atoi_iff",
    "Anansi.Flg.lolwut_asked",
    "Anansi.Flg.refused",
    "Anansi.Flg.parsed_once",
    "Anansi.Flg.timing_flag_inert",
    "Anansi.Flg.telemetry_unnamed",
    "Anansi.Flg.negative_is_flag"
   ],
   "note": "Settings, the commands and the platform's files are proved for all command lines. The code violates the rest (proved): the flag platform.timing has no effect; no flag names the telemetry log, so that it cannot be asked for; AddFlags with a prefix forgets that its configuration asked for timing (addFlags_keeps); and a negative number given to lolwut is taken for an unknown flag instead of being raised to one. Package flag is modelled as documented."
  },
  {
   "property": "C129",
   "status": "partial",
   "theorems": [
    "Anansi.Typ.typing_edits_partial",
    "Anansi.Typ.typing_typed",
    "Anansi.Typ.typing_enters_partial",
    "Anansi.Typ.typing_shown_partial",
    "Anansi.Typ.cut_char_lost",
    "Anansi.Typ.private_char_moves"
   ],
   "note": "Proved for frames with at most one read, each bringing whole keys in pieces cut anywhere. The code violates the rest (proved): a character cut by the end of a frame is lost; characters of the private use area U+EF00 to U+EFFF act as escape sequences, so that typing U+EFC4 moves the cursor; backspace in the middle of a text (C48) and a second read in a frame (C81) as shown there. Drawing is assumed not to panic, which typing_shown_partial gives for boxes on the screen with a column to spare."
  },
  {
   "property": "C13",
   "status": "proved",
   "theorems": [
    "Anansi.decode_preserves",
    "Anansi.decode_drops_only_deletes_and_cancelled"
   ],
   "note": ""
  },
  {
   "property": "C130",
   "status": "partial",
   "theorems": [
    "Anansi.Itr.frame_keys",
    "Anansi.Itr.idle_shown",
    "Anansi.Itr.frame_told",
    "Anansi.Itr.edit_frame_partial",
    "Anansi.Itr.typed_value_partial",
    "Anansi.Itr.prompt_shown",
    "Anansi.Itr.outcome_shown_partial",
    "Anansi.Itr.frame_safe",
    "Anansi.Itr.session_safe",
    "Anansi.Itr.editing_moves_words",
    "Anansi.Itr.typed_before_value",
    "Anansi.Itr.output_lines_shift",
    "Anansi.Itr.output_hangs"
   ],
   "note": "Frames without presses on words, the keys, the absence of panics and the link to C103 are proved in full. Editing is proved for frames in which one word is pressed and nothing before it is edited; the output for output of one line. Defects (proved): while a value is edited, the words after it stand where the edit line leaves the cursor rather than in their places; a value edited again has what is typed before it rather than after; the lines of an output with line feeds alone start where the one before ended; output with two question marks in a mode sequence hangs the program. Screens with too few rows and empty command lines panic as shown in C103."
  },
  {
   "property": "C131",
   "status": "partial",
   "theorems": [
    "Anansi.Direct.session_shown_partial",
    "Anansi.Direct.frame_shown",
    "Anansi.Direct.new_synced",
    "Anansi.Direct.resize_synced",
    "Anansi.Direct.redraw_synced",
    "Anansi.Direct.diagonal_wrong"
   ],
   "note": "Missing, each because of a proved defect: frames with an awkward jump of the cursor (C32; the diagonal shown here comes out wrong), a style set last with nothing written after it (C35), a first frame under a coloured background on terminals that erase in colour (C32), calls outside of what the emulation follows (C78), and writes that are cut short (C35)."
  },
  {
   "property": "C132",
   "status": "partial",
   "theorems": [
    "Anansi.Direct.plat_shown_partial",
    "Anansi.Direct.plat_frame_shown",
    "Anansi.Direct.sizeTo_synced",
    "Anansi.Direct.style_carries_over",
    "Anansi.Direct.unplaced_text_lost",
    "Anansi.Direct.stale_cells_shown"
   ],
   "note": "The page is blank but has the style the terminal has (or none): Reset inherits the style of the cell changed last, so that the same frame drawn twice can look different (style_carries_over). Text that does not begin by positioning can be lost (unplaced_text_lost). If the terminal's size changes between polling and the redraw, cells of earlier frames come back (stale_cells_shown). Missing as in C131: awkward jumps, coloured erasing, styles with nothing written after them."
  },
  {
   "property": "C133",
   "status": "partial",
   "theorems": [
    "Anansi.Direct.typed_shown_partial",
    "Anansi.Direct.line_frame",
    "Anansi.Direct.update_drawn",
    "Anansi.Direct.cells_boxed",
    "Anansi.Direct.typed_last_column"
   ],
   "note": "Missing: boxes that reach the last two columns, where the cursor is shown wrong (typed_last_column), boxes of one column (C66), backspace in the middle and the other defects of typing (C129), the head-up display, and a first frame under a coloured background on terminals that erase in colour (C32). How typed bytes become the events of a frame is C129."
  },
  {
   "property": "C134",
   "status": "partial",
   "theorems": [
    "Anansi.App.end_to_end_partial",
    "Anansi.App.frame_shown",
    "Anansi.App.polls_sent",
    "Anansi.App.update_view",
    "Anansi.App.polled_going",
    "Anansi.App.readAny_able"
   ],
   "note": "Missing, each because of a proved defect: what typing does wrong (C129: backspace in the middle, two reads in a frame, characters cut by the end of a frame), boxes that reach the last two columns (C133), a first frame under a coloured background on terminals that erase in colour (C32), sizes that change between polling and drawing (C132, stale_cells_shown). Out of scope: the head-up display when shown, replays, and failing or short writes."
  },
  {
   "property": "C135",
   "status": "partial",
   "theorems": [
    "Anansi.Direct.pictures_shown_partial",
    "Anansi.Direct.picture_frame",
    "Anansi.Direct.picture_smooth",
    "Anansi.Direct.animation_wrong",
    "Anansi.Direct.whole_made"
   ],
   "note": "Frames that are drawn anew (the first, after changes of size, on redraws) are shown whatever they are. Missing: frames of which only the changes are written, if this takes the jumps that Cursor.To gets wrong (C31): two dots that appear at once may both be shown in the first row (animation_wrong). Erasing everything must not colour the screen (C32)."
  },
  {
   "property": "C136",
   "status": "partial",
   "theorems": [
    "Anansi.Stl.stalled_shown_partial",
    "Anansi.Stl.flush_pieces",
    "Anansi.Stl.flush_whole",
    "Anansi.Stl.flush_again",
    "Anansi.Stl.flush_fails",
    "Anansi.Stl.unwrap_spec",
    "Anansi.Stl.stalled_misplaces"
   ],
   "note": "Missing: what follows. After a frame in two pieces the record has the new cells but the old cursor (screen.go:97-107 returns before it takes the new state), so that the next frame, if only its changes are written, may put them into the wrong cells (stalled_misplaces: z is written over x); a redraw is right if the frame has left the style and the cursor's visibility as they were. Frames whose jumps Cursor.To gets wrong are left out (C31). The flags of polled files are changed by asking for their descriptor, and calls to fcntl that fail are in C45."
  },
  {
   "property": "C137",
   "status": "partial",
   "theorems": [
    "Anansi.Clk.clicked_partial",
    "Anansi.Clk.clicked_frame_partial",
    "Anansi.Clk.press_iff",
    "Anansi.Clk.wheel_clicks",
    "Anansi.Clk.late_click"
   ],
   "note": "Missing, because it fails: turning the wheel to the right counts as a press of the right button (wheel_clicks, C57); a second read in a frame drops the presses of the first (Frm.second_read_drops, C81); a press where there is nothing to press counts for what comes to be there later, until there is other input (late_click). Reports cut by the end of a frame are in C43 and C64."
  },
  {
   "property": "C138",
   "status": "partial",
   "theorems": [
    "Anansi.Direct.resumed_partial",
    "Anansi.Direct.nap_loses",
    "Anansi.Direct.nap_stale"
   ],
   "note": "Missing, because it fails: what the frame drew before it was suspended is lost (nap_loses); when the terminal has more cells than before, cells drawn long ago may show in that frame (nap_stale, cf. Direct.stale_cells_shown, C132); if the size cannot be had when entering, nothing is forgotten (Sess.size_error_stale, C127). The terminal's erasing with the background colour or without is taken not to change."
  },
  {
   "property": "C139",
   "status": "partial",
   "theorems": [
    "Anansi.Direct.sprites_shown_partial",
    "Anansi.Direct.sprite_made",
    "Anansi.Direct.sprite_panics"
   ],
   "note": "Missing, because it fails: empty lines before the first that is not empty are accepted but not counted (Bitmap.parse_accepts_uneven, C26); frames that are not drawn anew and take awkward jumps come out wrong (Direct.animation_wrong, C135)."
  },
  {
   "property": "C14",
   "status": "proved",
   "theorems": [
    "Anansi.stream_decodes"
   ],
   "note": ""
  },
  {
   "property": "C140",
   "status": "proved",
   "theorems": [
    "Anansi.printed_tells",
    "Anansi.seq_string",
    "Anansi.written_prints",
    "Anansi.esc_like_csi"
   ],
   "note": "fmt's %q is a parameter, of which it is assumed that quoted strings begin with a double quote and tell what was quoted, and that quoted runes begin with a single quote and none is the beginning of another. Other sequences than control sequences may be written alike and print differently: ESC with the arguments [ and 1 and the final m is CSI 1 m (esc_like_csi)."
  },
  {
   "property": "C141",
   "status": "partial",
   "theorems": [
    "Anansi.TFile.telemetry_written_partial",
    "Anansi.TFile.same_name_spoils",
    "Anansi.TFile.stuck_after_close"
   ],
   "note": "Missing, because it fails: choosing the chosen file again while something is logged leaves zeros in the file in front of the text, because it is emptied before the lock is taken (same_name_spoils); when closing the old file fails, the collector keeps the closed handle, and from then on nothing is ever written and every choice is refused, after emptying the file that was chosen (stuck_after_close). Files are known by name."
  },
  {
   "property": "C142",
   "status": "partial",
   "theorems": [
    "Anansi.Direct.overlay_shown_partial",
    "Anansi.Direct.overlay_any_shown",
    "Anansi.Direct.overlay_hidden",
    "Anansi.Direct.overlay_empties"
   ],
   "note": "Missing, because it fails: screens without room for the header (C91) or the log (C98), jumps that Cursor.To gets wrong and coloured erasing (C31, C32), clients that do not begin by positioning (C132). With open panels the terminal shows what they leave on the virtual screen (overlay_any_shown), which is what C104 and C122 to C124 say."
  },
  {
   "property": "C143",
   "status": "partial",
   "theorems": [
    "Anansi.Direct.demo_seen",
    "Anansi.Direct.demo_shown_partial",
    "Anansi.Direct.demo_unseen",
    "Anansi.Direct.demo_frame_shown"
   ],
   "note": "demo_seen says what is on the terminal at any size, and demo_shown_partial proves the claim for one row. For two rows and more it is false (demo_unseen): all rows are written at the first (C105), so the first row shows the last one's colours and the others are blank. Missing: frames in which it is suspended, changes of size (C105 says what the screen has then), redraws on terminals whose erasing colours (C32)."
  },
  {
   "property": "C144",
   "status": "partial",
   "theorems": [
    "Anansi.Cmd.typed_interrupt_status",
    "Anansi.Cmd.interrupt_ends",
    "Anansi.Cmd.eof_ends",
    "Anansi.Cmd.signal_ends",
    "Anansi.Cmd.loop_status",
    "Anansi.Cmd.interrupt_status",
    "Anansi.Cmd.signal_code",
    "Anansi.Cmd.demo_obeys",
    "Anansi.Cmd.demo_interrupts",
    "Anansi.Cmd.lolwut_interrupts",
    "Anansi.Cmd.interact_interrupts",
    "Anansi.Cmd.once_status",
    "Anansi.Cmd.lolwut_interrupt_fails"
   ],
   "note": "It holds for demo and interact. lolwut violates it: Ctrl-C and the end of the input end it with status 1 and an error in the log (lolwut_interrupt_fails, once_status). Missing: input cut inside a character (C129), reads that fail, and, at the end of the input or a signal, a later read in the same frame that waits for ever."
  },
  {
   "property": "C145",
   "status": "partial",
   "theorems": [
    "Anansi.Direct.lolwut_shown_partial",
    "Anansi.Direct.lol_frame",
    "Anansi.Direct.lol_update"
   ],
   "note": "Missing, because it fails: frames of which only the changes are written, if the jumps between them are those that Cursor.To gets wrong (C135's animation_wrong); the rows that a terminal gains when only its height changes stay blank (C109's taller_blank; lolwut_shown_partial says which cells the picture covers). What is computed in floating point is given from outside."
  },
  {
   "property": "C146",
   "status": "partial",
   "theorems": [
    "Anansi.Direct.interact_shown",
    "Anansi.Direct.outcome_filled",
    "Anansi.Direct.interact_unseen",
    "Anansi.Itr.idle_left"
   ],
   "note": "Violated: when the last word has a style, i.e. is a variable or the only word, as in `interact ls`, nothing is ever shown while the overlay is hidden (interact_unseen, for any frames in which no word is pressed, with or without redraws): ending the style leaves a sequence in the buffer, which WriteTo takes for the rest of an earlier flush (C35). Otherwise interact_shown holds; as in C135, frames of which only the changes are written must not take the jumps that Cursor.To gets wrong. The output is a single line that fits (C130)."
  },
  {
   "property": "C147",
   "status": "proved",
   "theorems": [
    "Anansi.Geom.mul_exact",
    "Anansi.Geom.div_exact",
    "Anansi.Geom.mul_div",
    "Anansi.Geom.scaled_valid",
    "Anansi.Geom.diff_leads",
    "Anansi.Geom.eq_points",
    "Anansi.Geom.text_form",
    "Anansi.Geom.text_tells"
   ],
   "note": "div_exact leaves out the one quotient that does not fit, that of the least integer by -1."
  },
  {
   "property": "C148",
   "status": "partial",
   "theorems": [
    "Anansi.Direct.interact_over_shown",
    "Anansi.Direct.interact_over_edit",
    "Anansi.Direct.interact_over_empty",
    "Anansi.Direct.overlay_stays",
    "Anansi.Itr.idle_after"
   ],
   "note": "The first part is proved, for frames whose jumps are not those that Cursor.To gets wrong (C31) and without coloured erasing (C32). The last part is violated: if the last word has a style, as in `interact ls`, nothing of the frame that hides the overlay is flushed, and the terminal goes on showing the overlay (overlay_stays). With open panels the terminal shows what they leave on the virtual screen (overlay_any_shown, C142, which holds for any client). Missing: an edit in a line of words that fills the row to its last column but one."
  },
  {
   "property": "C149",
   "status": "partial",
   "theorems": [
    "Anansi.Direct.interact_edit_shown",
    "Anansi.Direct.edit_begins_unseen",
    "Anansi.Direct.edit_ends_unseen",
    "Anansi.Direct.edit_alike",
    "Anansi.Direct.edit_residue",
    "Anansi.Itr.edit_drawn",
    "Anansi.Direct.interact_aside_shown",
    "Anansi.Direct.interact_aside_empty",
    "Anansi.Direct.aside_unseen",
    "Anansi.Direct.aside_moved",
    "Anansi.Itr.edit_drawn_any",
    "Anansi.Direct.aside_ends_stale",
    "Anansi.Direct.aside_ends_unseen",
    "Anansi.Itr.edit_ends_aside"
   ],
   "note": "The frames in which the text is not empty are proved to be shown, without the jumps that Cursor.To gets wrong (C31) and without coloured erasing (C32). The rest is violated: a frame whose text is empty, as when the edit of a variable without a value begins, writes nothing but the end of a style (edit_begins_unseen); so does the frame in which Enter or Escape ends the edit, and the terminal goes on showing it (edit_ends_unseen); and behind a text shorter than the name stands the rest of the name (edit_residue), so that different texts show the same characters (edit_alike). A variable that is not the last word is proved too: if the last word is not a variable, every frame of the edit is shown, that with an empty text included (interact_aside_shown, interact_aside_empty); but the words after the text do not keep their places, they are written from the end of the text on (aside_moved), and if the last word is another variable none of the edit is shown (aside_unseen). The frame in which Enter gives such a variable its value shows the new output but the old value (aside_ends_stale), or, if the last word is another variable, nothing (aside_ends_unseen). Missing: a line of words that fills the row to its last column but one."
  },
  {
   "property": "C15",
   "status": "partial",
   "theorems": [
    "Anansi.chunking_partial",
    "Anansi.chunking_splits_csi",
    "Anansi.chunking_splits_rune"
   ],
   "note": "Proved for splits at item boundaries and inside escapes that have only intermediates so far; other splits give different events in the code (negations proved)."
  },
  {
   "property": "C150",
   "status": "partial",
   "theorems": [
    "Anansi.cursor_text",
    "Anansi.cursor_tells",
    "Anansi.screen_tells",
    "Anansi.Evq.mouse_tells_partial",
    "Anansi.Evq.mouse_text_wrong",
    "Anansi.Evq.escape_tells",
    "Anansi.Hud.flushed_text",
    "Anansi.Hud.size_text",
    "Anansi.Hud.header_tells_partial",
    "Anansi.Hud.header_printable"
   ],
   "note": "Proved for cursors, screens and sequences. For mouse events it is violated by the fourth direction of the wheel, which is named as the right button (mouse_text_wrong, C107), and proved for all others. Escapes are the controls, escape and control sequences; runes that are stored as such are quoted by fmt and left out. The attributes of a cursor are those of a style, i.e. a colour has bits only if it is set."
  },
  {
   "property": "C151",
   "status": "proved",
   "theorems": [
    "Anansi.Hud.clock_text",
    "Anansi.Hud.clock_tells",
    "Anansi.Hud.clock_order",
    "Anansi.Hud.prof_tells",
    "Anansi.Hud.header_stays",
    "Anansi.Hud.header_ready"
   ],
   "note": "Go's time.Time.Format is written down from its documentation for this one layout; a time is the nanoseconds since midnight. The frame rate, whose text is of floating point, is a parameter: the header does move with its width."
  },
  {
   "property": "C152",
   "status": "proved",
   "theorems": [
    "Anansi.Hud.panels_take",
    "Anansi.Hud.panels_quiet",
    "Anansi.Hud.overlay_takes",
    "Anansi.Hud.overlay_quiet",
    "Anansi.Hud.still_frames"
   ],
   "note": "For frames that do not panic; where the panels panic on narrow or low screens is C142 and others. What is drawn is not said here. The client has its frame first (hud.go:84), so it is given the keys that are typed into a control of the overlay as well."
  },
  {
   "property": "C153",
   "status": "proved",
   "theorems": [
    "Anansi.Hud.panels_adds"
   ],
   "note": "For frames that do not panic. That a profile can be added twice by two presses in one frame is in C94. Controls are known by the order they are drawn in, so the control that is active may be another than in the frame before (C93)."
  },
  {
   "property": "C16",
   "status": "partial",
   "theorems": [
    "Anansi.process_stops_partial",
    "Anansi.waiting_resumes_partial",
    "Anansi.wedged_forever",
    "Anansi.cancelled_leaves_complete_escape",
    "Anansi.Screen.mode_loop_hangs"
   ],
   "note": "Termination of the byte loop and a full classification of leftovers proved; ESC ESC wedges the code for good (negation proved)."
  },
  {
   "property": "C17",
   "status": "proved",
   "theorems": [
    "Anansi.buffer_offset"
   ],
   "note": ""
  },
  {
   "property": "C18",
   "status": "partial",
   "theorems": [
    "Anansi.Grid.cellOffset_outside",
    "Anansi.Grid.cellOffset_inside_partial",
    "Anansi.Grid.cellOffset_injective_partial",
    "Anansi.Grid.resize_sub_overruns"
   ],
   "note": "Grids made by resizing a sub-grid that does not start at the first cell overrun the arrays (negation proved)."
  },
  {
   "property": "C19",
   "status": "proved",
   "theorems": [
    "Anansi.Grid.subRect_mem",
    "Anansi.Grid.subRect_outside",
    "Anansi.Grid.subRect_same_cells",
    "Anansi.Grid.subAt_mem",
    "Anansi.Grid.subSize_mem",
    "Anansi.Grid.clear_exact",
    "Anansi.Grid.clear_sub_frame"
   ],
   "note": ""
  },
  {
   "property": "C20",
   "status": "partial",
   "theorems": [
    "Anansi.Grid.resize_exact_partial",
    "Anansi.Grid.resize_zero_width_stuck",
    "Anansi.Grid.resize_keeps_prefix"
   ],
   "note": "A resize to zero width and non-zero height makes the width stick at zero (negation proved)."
  },
  {
   "property": "C21",
   "status": "proved",
   "theorems": [
    "Anansi.Grid.draw_plain"
   ],
   "note": ""
  },
  {
   "property": "C22",
   "status": "partial",
   "theorems": [
    "Anansi.Grid.draw_styled_partial",
    "Anansi.Grid.draw_styled_overruns",
    "Anansi.Grid.draw_styled_panics",
    "Anansi.Grid.draw_styled_wrong_point"
   ],
   "note": "Styled drawing advances neither the destination column nor the source row in its loop conditions (negations proved)."
  },
  {
   "property": "C23",
   "status": "partial",
   "theorems": [
    "Anansi.Combo.combined_style_partial",
    "Anansi.Combo.noop_identity",
    "Anansi.Combo.styles_assoc",
    "Anansi.Combo.noop_drops_attr"
   ],
   "note": "The no-op style alone zeroes the attribute (negation proved)."
  },
  {
   "property": "C24",
   "status": "partial",
   "theorems": [
    "Anansi.Bitmap.rune_exact_partial",
    "Anansi.Bitmap.rune_blank",
    "Anansi.Bitmap.dotOn_braille",
    "Anansi.Bitmap.runes_recover",
    "Anansi.Bitmap.rune_outside_blank"
   ],
   "note": "Positions outside the bounds whose block reaches into the bitmap give a blank rune (negation proved)."
  },
  {
   "property": "C25",
   "status": "proved",
   "theorems": [
    "Anansi.Bitmap.get_outside",
    "Anansi.Bitmap.get_total",
    "Anansi.Bitmap.set_get",
    "Anansi.Bitmap.subRect_get"
   ],
   "note": ""
  },
  {
   "property": "C26",
   "status": "partial",
   "theorems": [
    "Anansi.Bitmap.load_rows_partial",
    "Anansi.Bitmap.load_drops_partial_row",
    "Anansi.Bitmap.load_short_panics",
    "Anansi.Bitmap.parse_ok_partial",
    "Anansi.Bitmap.parse_load",
    "Anansi.Bitmap.parse_accepts_uneven"
   ],
   "note": "A final partial row is dropped, short data panics, leading empty lines are accepted (negations proved)."
  },
  {
   "property": "C27",
   "status": "proved",
   "theorems": [
    "Anansi.Screen.whole_of_resize",
    "Anansi.Screen.screen_event_safe",
    "Anansi.VScreen.screen_stays_safe",
    "Anansi.Screen.hang_only_modes",
    "Anansi.Screen.sub_screen_cr_escapes"
   ],
   "note": "The only way not to return is a mode sequence with an empty argument (hang_only_modes, counted against C16); sub-screens let the cursor escape (negation proved)."
  },
  {
   "property": "C28",
   "status": "partial",
   "theorems": [
    "Anansi.Screen.print_exact_partial",
    "Anansi.Screen.print_last_cell"
   ],
   "note": "A print in the last cell leaves the cursor in the first column of the same row without scrolling (negation proved)."
  },
  {
   "property": "C29",
   "status": "partial",
   "theorems": [
    "Anansi.Screen.erase_display_before",
    "Anansi.Screen.erase_display_all",
    "Anansi.Screen.erase_display_after_partial",
    "Anansi.Screen.erase_display_keeps_cursor_cell",
    "Anansi.Screen.erase_default_ignored",
    "Anansi.Screen.erase_line_after",
    "Anansi.Screen.erase_line_before",
    "Anansi.Screen.erase_line_all"
   ],
   "note": "Erase to end of display leaves the cursor cell and the default parameter is ignored (negations proved)."
  },
  {
   "property": "C30",
   "status": "partial",
   "theorems": [
    "Anansi.Screen.linefeed_down_partial",
    "Anansi.Screen.linefeed_never_scrolls"
   ],
   "note": "A line feed on the last row never scrolls (negation proved)."
  },
  {
   "property": "C31",
   "status": "partial",
   "theorems": [
    "Anansi.cursor_to_partial",
    "Anansi.cursor_to_vertical_lost",
    "Anansi.cursor_to_past_margin_short"
   ],
   "note": "Straight vertical moves emit nothing and moves within a row after writing its last column are one short (negations proved)."
  },
  {
   "property": "C32",
   "status": "partial",
   "theorems": [
    "Anansi.update_shows_partial",
    "Anansi.update_again_partial",
    "Anansi.update_wrong_cell",
    "Anansi.update_wrong_margin",
    "Anansi.update_wrong_background",
    "Anansi.update_wrong_cursor"
   ],
   "note": "Proved when no awkward cursor jump is needed and no background is in force on an erasing terminal; the rest fails (negations proved)."
  },
  {
   "property": "C33",
   "status": "partial",
   "theorems": [
    "Anansi.update_records_partial",
    "Anansi.update_forgets_zero_width"
   ],
   "note": "A screen of zero width and non-zero height is not recorded (negation proved)."
  },
  {
   "property": "C34",
   "status": "partial",
   "theorems": [
    "Anansi.Differ.resume_bytes_partial",
    "Anansi.Differ.flush_frame",
    "Anansi.Differ.failed_flush",
    "Anansi.Differ.resume_forgets_style",
    "Anansi.Differ.write_eats_frame",
    "Anansi.Differ.failed_keeps_style"
   ],
   "note": "The bytes of an interrupted frame are delivered once and in order; the record after resuming, and calls made in between, go wrong (negations proved)."
  },
  {
   "property": "C35",
   "status": "partial",
   "theorems": [
    "Anansi.Differ.flush_shows_partial",
    "Anansi.Differ.staged_complete",
    "Anansi.Differ.flush_only_leftover",
    "Anansi.Differ.style_drops_frame",
    "Anansi.Differ.pending_drops_frame",
    "Anansi.Differ.resize_forgets"
   ],
   "note": "Proved when nothing is left over in the buffer; a style call or an unfinished sequence before the flush drops the frame (negations proved)."
  },
  {
   "property": "C36",
   "status": "partial",
   "theorems": [
    "Anansi.session_follow_partial",
    "Anansi.VCursor.apply_follow_partial",
    "Anansi.VCursor.apply_counts_twice",
    "Anansi.VCursor.wrap_not_followed",
    "Anansi.VCursor.newline_from_unknown",
    "Anansi.VCursor.zero_motion"
   ],
   "note": "All sessions a size-blind tracker can follow; the rest fails (negations proved)."
  },
  {
   "property": "C37",
   "status": "partial",
   "theorems": [
    "Anansi.VCursor.flush_outcomes_partial",
    "Anansi.VCursor.flush_error",
    "Anansi.VCursor.flush_only_if",
    "Anansi.VCursor.reset_restores",
    "Anansi.VCursor.reset_after",
    "Anansi.VCursor.flush_resumes",
    "Anansi.VCursor.failed_then_session",
    "Anansi.VCursor.session_flush_reset",
    "Anansi.VCursor.failed_flush_equal"
   ],
   "note": "Every part holds except that after a failure both states are forgotten and hence equal (failed_flush_equal)."
  },
  {
   "property": "C38",
   "status": "partial",
   "theorems": [
    "Anansi.Ctx.enter_order",
    "Anansi.Ctx.enter_all",
    "Anansi.Ctx.exit_order",
    "Anansi.Ctx.combine_partial",
    "Anansi.Ctx.combine_clobbers",
    "Anansi.Ctx.exit_panic_stops"
   ],
   "note": "Ordering proved; combining two lists that share a backing array overwrites contexts when the runtime leaves spare capacity (negation proved)."
  },
  {
   "property": "C39",
   "status": "partial",
   "theorems": [
    "Anansi.Ctx.with_exits",
    "Anansi.Ctx.with_result",
    "Anansi.Ctx.runs_bracketed_partial",
    "Anansi.Ctx.closes_last_partial",
    "Anansi.Ctx.close_inside_without",
    "Anansi.Ctx.exit_twice",
    "Anansi.Ctx.add_context_under"
   ],
   "note": "A RunWith inside RunWithout closes early and an error inside RunWithout exits twice (negations proved)."
  },
  {
   "property": "C40",
   "status": "proved",
   "theorems": [
    "Anansi.ModeBuf.mode_strings",
    "Anansi.ModeBuf.mode_no_file",
    "Anansi.modes_added"
   ],
   "note": ""
  },
  {
   "property": "C41",
   "status": "proved",
   "theorems": [
    "Anansi.Tty.attr_between",
    "Anansi.Tty.exit_restores",
    "Anansi.Tty.no_file",
    "Anansi.Tty.failed_raw_not_retried",
    "Anansi.Tty.failed_enter_zeroes"
   ],
   "note": "The last two record what happens when system calls fail, outside the property."
  },
  {
   "property": "C42",
   "status": "partial",
   "theorems": [
    "Anansi.Inp.flags_restored_partial",
    "Anansi.Inp.polled_not_restored",
    "Anansi.Inp.failed_enter_clears",
    "Anansi.Inp.read_more_waits_partial",
    "Anansi.Inp.read_more_never_waits"
   ],
   "note": "Flags are restored except for files Go found in non-blocking mode; blocking reads never come back after ReadAny (negations proved)."
  },
  {
   "property": "C43",
   "status": "partial",
   "theorems": [
    "Anansi.Inp.reads_boundaries_partial",
    "Anansi.Inp.reads_same_partial",
    "Anansi.Inp.reads_split_intro",
    "Anansi.Inp.reads_split_rune",
    "Anansi.Inp.reads_split_alt"
   ],
   "note": "Proved for cuts between items and anywhere inside control sequences and strings after the introducer; cuts inside an introducer, a text character or an ESC sequence change the events (negations proved)."
  },
  {
   "property": "C44",
   "status": "partial",
   "theorems": [
    "Anansi.Rpl.push_spec",
    "Anansi.Rpl.plain_bytes",
    "Anansi.Rpl.steps_spec",
    "Anansi.Rpl.loop_data",
    "Anansi.Rpl.loop_spec",
    "Anansi.Rpl.replay_partial",
    "Anansi.Rpl.session_partial",
    "Anansi.Rpl.zero_bytes",
    "Anansi.Rpl.error_as_message",
    "Anansi.Rpl.string_lost",
    "Anansi.Rpl.alt_changed",
    "Anansi.Rpl.private_changed",
    "Anansi.Rpl.apc_taken",
    "Anansi.Rpl.unfinished_lost"
   ],
   "note": "Proved for sessions of plain input and messages without errors, up to a zero byte put in for every read; errors come back as messages, and strings, some Alt keys and unfinished input are lost or changed (negations proved)."
  },
  {
   "property": "C45",
   "status": "partial",
   "theorems": [
    "Anansi.Outp.flush_loses_nothing",
    "Anansi.Outp.flush_restores_partial",
    "Anansi.Outp.flush_polled_blocks",
    "Anansi.Outp.flush_hides_wouldblock",
    "Anansi.Outp.stalls_bounded",
    "Anansi.Outp.stalls_recorded",
    "Anansi.Outp.stalls_reads",
    "Anansi.Outp.stalls_room"
   ],
   "note": "Bytes and stall records are proved in full; the mode is not restored for files Go found in non-blocking mode (negation proved)."
  },
  {
   "property": "C46",
   "status": "partial",
   "theorems": [
    "Anansi.Sig.send_never_blocks_partial",
    "Anansi.Sig.open_opened",
    "Anansi.Sig.burst_delivered",
    "Anansi.Sig.wakeup",
    "Anansi.Sig.lone_send_never_blocks",
    "Anansi.Sig.unopened_race_blocks",
    "Anansi.Sig.close_race_blocks",
    "Anansi.Sig.unbuffered_loses"
   ],
   "note": "Proved for a signal that has been opened and for a lone sender; several senders on an unopened signal, or Close during the first send, can block for ever (negations proved)."
  },
  {
   "property": "C47",
   "status": "partial",
   "theorems": [
    "Anansi.Bg.stop_returns_partial",
    "Anansi.Bg.stop_hangs",
    "Anansi.Bg.stop_hangs_at_start",
    "Anansi.Bg.stop_hangs_after_notify",
    "Anansi.Bg.stop_no_file"
   ],
   "note": "Stop returns when the worker waits and nothing is pending; otherwise there are schedules in which Stop hangs for ever (negations proved)."
  },
  {
   "property": "C48",
   "status": "partial",
   "theorems": [
    "Anansi.Edl.insert_holds",
    "Anansi.Edl.delete_holds",
    "Anansi.Edl.backspace_holds_partial",
    "Anansi.Edl.arrow_holds",
    "Anansi.Edl.handle_holds_partial",
    "Anansi.Edl.session_holds_partial",
    "Anansi.Edl.update_holds_partial",
    "Anansi.Edl.reset_holds",
    "Anansi.Edl.backspace_middle"
   ],
   "note": "Proved for all sessions without a backspace in the middle of the text; there the code removes the character at the cursor instead of the one before it (negation proved)."
  },
  {
   "property": "C49",
   "status": "partial",
   "theorems": [
    "Anansi.Evq.countRune_strikes",
    "Anansi.Evq.countRune_exact_partial",
    "Anansi.Evq.countRune_twice",
    "Anansi.Evq.hasTerminal_strikes",
    "Anansi.Evq.countPressesIn_exact",
    "Anansi.Evq.anyPressesOutside_iff",
    "Anansi.Evq.totalScrollIn_exact",
    "Anansi.Evq.lastMouse_exact",
    "Anansi.Evq.totalCursorMovement_exact",
    "Anansi.Evq.isEmpty_iff",
    "Anansi.Evq.decodeBytes_items",
    "Anansi.Evq.decodeInput_items",
    "Anansi.Evq.entry_report",
    "Anansi.Evq.entry_other",
    "Anansi.Evq.private_rune_is_escape",
    "Anansi.Evq.cancelled_adds"
   ],
   "note": "All queries mark and count exactly, except that a rune asked for twice is counted twice; decoding appends one entry per item for whole items, and cancelled sequences or private use characters are misread (negations proved)."
  },
  {
   "property": "C50",
   "status": "partial",
   "theorems": [
    "Anansi.Logs.write_exact",
    "Anansi.Logs.read_exact",
    "Anansi.Logs.calls_exact_partial",
    "Anansi.Logs.unfinished_implicit",
    "Anansi.Logs.implicit_read",
    "Anansi.Logs.implicit_panics",
    "Anansi.Logs.unfinished_panics"
   ],
   "note": "Proved for all histories of whole-line writes and partial reads; after any write not ending in a newline every later write panics (negation proved)."
  },
  {
   "property": "C51",
   "status": "partial",
   "theorems": [
    "Anansi.Lgv.scroll_within",
    "Anansi.Lgv.scroll_moves",
    "Anansi.Lgv.scroll_follows",
    "Anansi.Lgv.follow_shows_last",
    "Anansi.Lgv.window_within",
    "Anansi.Lgv.shown_lines",
    "Anansi.Lgv.update_shows",
    "Anansi.Lgv.run_shows_partial",
    "Anansi.Lgv.read_out_panics",
    "Anansi.Lgv.negative_view_panics"
   ],
   "note": "Proved for all sessions in which the log only grows; reading lines out of the log while scrolled panics (negation proved)."
  },
  {
   "property": "C52",
   "status": "partial",
   "theorems": [
    "Anansi.Szd.section_written",
    "Anansi.Szd.readLimited_spec",
    "Anansi.Szd.section_reads_partial",
    "Anansi.Szd.no_chunks_no_section",
    "Anansi.Szd.short_read_breaks",
    "Anansi.Szd.cut_section_accepted"
   ],
   "note": "Proved for one or more writes and a first read that gets the whole size; a section never written to has no size, a short first read gives a wrong size, and a cut section is accepted (negations proved)."
  },
  {
   "property": "C53",
   "status": "partial",
   "theorems": [
    "Anansi.Tin.readNullString_spec",
    "Anansi.Tin.read_present",
    "Anansi.Tin.read_absent",
    "Anansi.Tin.readFrom_partial",
    "Anansi.Tin.absent_not_empty",
    "Anansi.Tin.absent_witness",
    "Anansi.Tin.few_strings",
    "Anansi.Tin.few_strings_junk"
   ],
   "note": "Proved for entries with offsets for all capabilities asked for, with no absent ones unless the last string is in the first 256 bytes; otherwise absent capabilities read as junk (negations proved)."
  },
  {
   "property": "C54",
   "status": "partial",
   "theorems": [
    "Anansi.Col.index_spec",
    "Anansi.Col.index_nearest_partial",
    "Anansi.Col.index_exact_partial",
    "Anansi.Col.standard_exact",
    "Anansi.Col.convert_mem",
    "Anansi.Col.near_miss_returned"
   ],
   "note": "The result is within 3 of the least squared distance, and exact for palette members with no near neighbour before them; the early exit can return a neighbour of an exact match (negation proved)."
  },
  {
   "property": "C55",
   "status": "proved",
   "theorems": [
    "Anansi.Geom.empty_iff",
    "Anansi.Geom.mem_intersect",
    "Anansi.Geom.subset_union",
    "Anansi.Geom.union_smallest",
    "Anansi.Geom.rectIn_iff",
    "Anansi.Geom.rectEq_iff",
    "Anansi.Geom.overlaps_iff",
    "Anansi.Geom.mem_inset",
    "Anansi.Geom.mem_rectAdd",
    "Anansi.Geom.mem_rectSub",
    "Anansi.Geom.canon_wf",
    "Anansi.Geom.canon_of_wf",
    "Anansi.Geom.rect_wf"
   ],
   "note": ""
  },
  {
   "property": "C56",
   "status": "partial",
   "theorems": [
    "Anansi.Geom.point_to_ansi_and_back",
    "Anansi.Geom.point_to_image_and_back",
    "Anansi.Geom.rect_to_image_mem_partial",
    "Anansi.Geom.rectFromImage_always_zero",
    "Anansi.Geom.rect_image_not_roundtrip"
   ],
   "note": "RectFromImage always returns the zero rectangle (negation proved)."
  },
  {
   "property": "C57",
   "status": "partial",
   "theorems": [
    "Anansi.Mouse.decode_report",
    "Anansi.Mouse.report_features_partial",
    "Anansi.Mouse.wheel_right_is_right",
    "Anansi.Mouse.extra_button_is_release",
    "Anansi.Mouse.accepts_only_partial",
    "Anansi.Mouse.rejects_byte",
    "Anansi.Mouse.accepts_odd",
    "Anansi.Mouse.not_a_report"
   ],
   "note": "Codes from 128 on, the wheel's fourth direction and some malformed reports are misread (negations proved)."
  },
  {
   "property": "C58",
   "status": "partial",
   "theorems": [
    "Anansi.mode_bytes",
    "Anansi.mode_cover",
    "Anansi.mode_roundtrip_partial",
    "Anansi.mode_too_big"
   ],
   "note": "Mode numbers that do not fit are read back as other numbers (negation proved)."
  },
  {
   "property": "C59",
   "status": "partial",
   "theorems": [
    "Anansi.Cfg.merge_keeps_partial",
    "Anansi.Cfg.merge_assoc",
    "Anansi.Cfg.new_first",
    "Anansi.Cfg.start_timing_dropped",
    "Anansi.Cfg.start_timing_never"
   ],
   "note": "All fields merge with the first set one winning, except StartTiming, which is dropped (negation proved)."
  },
  {
   "property": "C60",
   "status": "partial",
   "theorems": [
    "Anansi.Grid.eq_iff_partial",
    "Anansi.Grid.eq_ignores_size",
    "Anansi.Grid.eq_ignores_bounds"
   ],
   "note": "Eq compares the stores only, not the bounds (negations proved)."
  },
  {
   "property": "C61",
   "status": "partial",
   "theorems": [
    "Anansi.Style.transparentRunes_spec",
    "Anansi.Style.transparentAttr_spec",
    "Anansi.Style.transparentBGFG_partial",
    "Anansi.Style.transparentBGFG_not_both",
    "Anansi.Style.attr_spec",
    "Anansi.Style.attr_then_default",
    "Anansi.Style.zero_then_default",
    "Anansi.Style.fill_spec"
   ],
   "note": "TransparentAttrBGFG is not the combination of the two single styles (negation proved)."
  },
  {
   "property": "C62",
   "status": "proved",
   "theorems": [
    "Anansi.Grid.draw_bitmap",
    "Anansi.Grid.draw_bitmap_plain"
   ],
   "note": ""
  },
  {
   "property": "C63",
   "status": "proved",
   "theorems": [
    "Anansi.sgr_bytes_meaning",
    "Anansi.sgr_diff_meaning",
    "Anansi.merge_sgr_shows",
    "Anansi.sgr_reset_sends_nul"
   ],
   "note": "sgr_reset_sends_nul records that the separate SGRReset constant is malformed."
  },
  {
   "property": "C64",
   "status": "proved",
   "theorems": [
    "Anansi.Inp.read_more_keeps",
    "Anansi.Inp.read_any_keeps",
    "Anansi.Inp.read_any_all"
   ],
   "note": ""
  },
  {
   "property": "C65",
   "status": "partial",
   "theorems": [
    "Anansi.Edl.ended_stays",
    "Anansi.Edl.handle_state",
    "Anansi.Edl.enter_ends_partial",
    "Anansi.Edl.typed_after_enter"
   ],
   "note": "Proved when Enter or Escape is the last event of its frame; keys after it in the same frame still change the text and the outcome (negation proved)."
  },
  {
   "property": "C66",
   "status": "partial",
   "theorems": [
    "Anansi.Screen.print_text",
    "Anansi.Edl.window_ok",
    "Anansi.Edl.shown_text",
    "Anansi.Edl.draw_shows_partial",
    "Anansi.Edl.full_line_leaves_box",
    "Anansi.Edl.long_line_flickers",
    "Anansi.Edl.empty_line_blanks",
    "Anansi.Edl.wide_line_blanks_next_row"
   ],
   "note": "The window and the cells drawn are exact for a non-empty text with a free column after it; with a full box the cursor and a blank are outside the box, and an empty line can blank a foreign cell (negations proved)."
  },
  {
   "property": "C67",
   "status": "partial",
   "theorems": [
    "Anansi.Logs.log_delivered_partial",
    "Anansi.Logs.lost_during_flush",
    "Anansi.Logs.lost_after_error"
   ],
   "note": "Proved for all schedules in which no flush fails and nothing is logged during a flush; otherwise lines are lost (negations proved)."
  },
  {
   "property": "C68",
   "status": "partial",
   "theorems": [
    "Anansi.Lgv.truncated_fits",
    "Anansi.Lgv.fit_length",
    "Anansi.Lgv.no_room_ellipsis"
   ],
   "note": "Proved for widths of at least one; for width zero an ellipsis is still written (negation proved)."
  },
  {
   "property": "C69",
   "status": "proved",
   "theorems": [
    "Anansi.Col.to24_same",
    "Anansi.Col.rgba_same",
    "Anansi.Col.clip_big",
    "Anansi.Col.table_standard",
    "Anansi.Col.canon_same",
    "Anansi.Col.canon_alias",
    "Anansi.Col.canon_other",
    "Anansi.Col.theme_convert",
    "Anansi.Col.canon_not_inverse"
   ],
   "note": ""
  },
  {
   "property": "C70",
   "status": "partial",
   "theorems": [
    "Anansi.Col.models_partial",
    "Anansi.Col.models_clobbered"
   ],
   "note": "Conversion in turn proved for all lists; combining can overwrite an earlier combination sharing its backing array (negation proved)."
  },
  {
   "property": "C71",
   "status": "partial",
   "theorems": [
    "Anansi.Tin.search_path",
    "Anansi.Tin.search_path_some",
    "Anansi.Tin.load_again",
    "Anansi.Tin.load_first_partial",
    "Anansi.Tin.builtin_named",
    "Anansi.Tin.contains_iff",
    "Anansi.Tin.builtin_compat",
    "Anansi.Tin.load_empty_panics",
    "Anansi.Tin.load_unreadable"
   ],
   "note": "Search path, order, caching and builtin choice proved; an empty name panics, and an unreadable file hides the builtin entry (negations proved)."
  },
  {
   "property": "C72",
   "status": "proved",
   "theorems": [
    "Anansi.Rpl.size_reads",
    "Anansi.Rpl.size_other",
    "Anansi.Rpl.size_bad",
    "Anansi.Rpl.size_junk"
   ],
   "note": "Sizes below 2^32."
  },
  {
   "property": "C73",
   "status": "partial",
   "theorems": [
    "Anansi.Rpl.advance_spec",
    "Anansi.Rpl.play_all",
    "Anansi.Rpl.play_prefix",
    "Anansi.Rpl.paused_stays",
    "Anansi.Rpl.stop_stops",
    "Anansi.Rpl.only_stop_stops",
    "Anansi.Rpl.paused_step",
    "Anansi.Rpl.paused_gets_keys",
    "Anansi.Rpl.untimed_dropped"
   ],
   "note": "Recorded frames with a time are shown in order under all user keys; while paused the client gets the live keys, and frames without a time are dropped (negations proved)."
  },
  {
   "property": "C74",
   "status": "partial",
   "theorems": [
    "Anansi.sgr_read_meaning_partial",
    "Anansi.sgr_reset_unread",
    "Anansi.sgr_codes_unread"
   ],
   "note": "Proved for parameters 0-7, 30-37, 40-47, 90-97, 100-107 and all indexed and 24-bit ones in any order; an empty sequence, and 8, 22-24, 27, 28, 39 and 49, are ignored (negations proved)."
  },
  {
   "property": "C75",
   "status": "proved",
   "theorems": [
    "Anansi.esc_name_iff",
    "Anansi.csi_name_iff",
    "Anansi.escape_ids",
    "Anansi.escape_string_injective",
    "Anansi.printed_forms"
   ],
   "note": "With any injective quoting of runes."
  },
  {
   "property": "C76",
   "status": "partial",
   "theorems": [
    "Anansi.T24.filter_keeps_partial",
    "Anansi.T24.sgr_converted",
    "Anansi.T24.filter_shows_partial",
    "Anansi.T24.background_unconverted",
    "Anansi.T24.strings_lost",
    "Anansi.T24.private_rune_mangled",
    "Anansi.T24.charset_mangled",
    "Anansi.T24.split_rune_mangled",
    "Anansi.T24.conceal_lost",
    "Anansi.T24.end_flushed"
   ],
   "note": "Proved for streams of runes outside the escape range and CSI sequences, for foreground colours; backgrounds are not converted, strings, private-use runes, charset selections and runes split between reads are lost or mangled (negations proved)."
  },
  {
   "property": "C77",
   "status": "proved",
   "theorems": [
    "Anansi.Line.points_line",
    "Anansi.Line.drawLine_sets",
    "Anansi.Line.line_order"
   ],
   "note": "Unbounded integers."
  },
  {
   "property": "C78",
   "status": "partial",
   "theorems": [
    "Anansi.emulation_partial",
    "Anansi.clear_emulates",
    "Anansi.fresh_emulates",
    "Anansi.wrap_then_return",
    "Anansi.zero_motion_screen",
    "Anansi.row_ignored"
   ],
   "note": "Proved for sessions without the situations where it fails: carriage return or relative motion right after a full line, motion by zero, position with the column left out (negations proved); scrolling, erasing below, SGR codes (negations in C29, C30, C74); coloured erasure."
  },
  {
   "property": "C79",
   "status": "partial",
   "theorems": [
    "Anansi.Frm.stop_signal_ends",
    "Anansi.Frm.stop_signal_wins",
    "Anansi.Frm.frame_goes_on",
    "Anansi.Frm.run_ended",
    "Anansi.Frm.run_live",
    "Anansi.Frm.signals_ignored"
   ],
   "note": "Proved for runs without a replay; a read can wait for ever, which is its own ending. Defect (proved): while a replay goes on, signals to stop are ignored."
  },
  {
   "property": "C80",
   "status": "partial",
   "theorems": [
    "Anansi.Frm.client_time",
    "Anansi.Frm.client_time_monotone",
    "Anansi.Frm.replay_shows"
   ],
   "note": "Proved for runs without a replay; while a replay goes on the client sees the recorded times (proved), which go back."
  },
  {
   "property": "C81",
   "status": "partial",
   "theorems": [
    "Anansi.Frm.input_once_partial",
    "Anansi.Frm.second_read_drops",
    "Anansi.Frm.left_shown_again"
   ],
   "note": "Proved for clients that handle all their input and at most one read in a frame; a second read in a frame drops what the first one brought, and input left by the client is shown again (negations proved)."
  },
  {
   "property": "C82",
   "status": "partial",
   "theorems": [
    "Anansi.Tel.timing_round_partial",
    "Anansi.Tel.timing_quartiles_partial",
    "Anansi.Tel.timing_rounds",
    "Anansi.Tel.quartile_default_rate",
    "Anansi.Tel.timing_reset_fresh",
    "Anansi.Tel.leading_gap_lost"
   ],
   "note": "Quartiles proved for round lengths that are multiples of four; at the default rate Q3 is not the third quartile, and frames at one time at the start of a round are lost from Min (negations proved). FPS, a float, is not modelled."
  },
  {
   "property": "C83",
   "status": "partial",
   "theorems": [
    "Anansi.Tel.frame_rate_timed_partial",
    "Anansi.Tel.frame_rate_low",
    "Anansi.Tel.frame_rate_zero",
    "Anansi.Tel.frame_rate_panics_iff"
   ],
   "note": "Proved for rates of at least four; lower ones panic (proved)."
  },
  {
   "property": "C84",
   "status": "proved",
   "theorems": [
    "Anansi.Tel.stalls_described"
   ],
   "note": "Pct, a float, is not modelled."
  },
  {
   "property": "C85",
   "status": "partial",
   "theorems": [
    "Anansi.Tel.usage_sound",
    "Anansi.Tel.usage_windows_partial",
    "Anansi.Tel.usage_window_exceeded"
   ],
   "note": "Proved for samples closer together than the windows; otherwise a difference can exceed its window (negation proved)."
  },
  {
   "property": "C86",
   "status": "partial",
   "theorems": [
    "Anansi.Rpl.record_replay_partial",
    "Anansi.Rpl.replay_events",
    "Anansi.Rpl.replay_faithful_iff",
    "Anansi.Rpl.resize_not_replayed",
    "Anansi.Rpl.split_swallows_mark"
   ],
   "note": "Proved for sessions of plain input read in whole things without a change of size and replayed from one read; changes of size are not recorded, and a read ending within a sequence swallows the mark of the next (negations proved)."
  },
  {
   "property": "C87",
   "status": "partial",
   "theorems": [
    "Anansi.Rcd.recording_files",
    "Anansi.Rcd.toggle_begins",
    "Anansi.Rcd.toggle_ends",
    "Anansi.Rcd.recording_holds",
    "Anansi.Rcd.begin_failure_silent",
    "Anansi.Rcd.close_failure_hides"
   ],
   "note": "All but the last clause is proved for all histories and failures; failures to begin a recording are not returned (negation proved)."
  },
  {
   "property": "C88",
   "status": "partial",
   "theorems": [
    "Anansi.Pfl.profile_file",
    "Anansi.Pfl.exit_stops",
    "Anansi.Pfl.enter_runs_partial",
    "Anansi.Pfl.profile_exact",
    "Anansi.Pfl.snapshot_exact",
    "Anansi.Pfl.config_exit",
    "Anansi.Pfl.config_exit_error",
    "Anansi.Pfl.config_enter_order",
    "Anansi.Pfl.sync_failure_sticks",
    "Anansi.Pfl.enter_failure_leaves"
   ],
   "note": "That the context says so is proved when syncing succeeds; after a failed sync profiling cannot be started again, and a failing Enter leaves the CPU profiler running (negations proved)."
  },
  {
   "property": "C89",
   "status": "partial",
   "theorems": [
    "Anansi.Tik.one_ticker",
    "Anansi.Tik.wait_ends_iff",
    "Anansi.Tik.wait_times",
    "Anansi.Tik.inactive_wait_hangs"
   ],
   "note": "Proved for waits begun while active; a wait begun when not active never returns (negation proved)."
  },
  {
   "property": "C90",
   "status": "partial",
   "theorems": [
    "Anansi.Lgs.no_line_lost_partial",
    "Anansi.Lgs.change_when_flushed",
    "Anansi.Lgs.same_file",
    "Anansi.Lgs.started_buffers",
    "Anansi.Lgs.pending_goes_to_new",
    "Anansi.Lgs.unset_loses",
    "Anansi.Lgs.set_after_unset_dead",
    "Anansi.Lgs.direct_change_drops_line"
   ],
   "note": "No line is lost in changes from file to file while the worker is there, and they are in the right file if nothing is waiting; otherwise lines go to the wrong file or are lost (negations proved). The worker is at rest between calls."
  },
  {
   "property": "C91",
   "status": "partial",
   "theorems": [
    "Anansi.Hud.header_drawn_partial",
    "Anansi.Hud.boxes_disjoint",
    "Anansi.Hud.box_shows",
    "Anansi.Hud.header_panics_iff",
    "Anansi.Hud.narrow_panics",
    "Anansi.Hud.last_overwrites"
   ],
   "note": "Proved for screens with room for all segments; on narrower ones the line panics or is written over itself (exact condition and witnesses proved)."
  },
  {
   "property": "C92",
   "status": "partial",
   "theorems": [
    "Anansi.Hud.heading_drawn",
    "Anansi.Hud.row_drawn_partial",
    "Anansi.Hud.button_drawn",
    "Anansi.Hud.toggle_drawn",
    "Anansi.Hud.heading_panics",
    "Anansi.Hud.row_panics",
    "Anansi.Hud.row_box_shifted"
   ],
   "note": "Headings, buttons and switches proved for screens wide enough; the box of a row is one column off its text, and narrow screens panic (negations proved)."
  },
  {
   "property": "C93",
   "status": "partial",
   "theorems": [
    "Anansi.Hud.press_activates",
    "Anansi.Hud.no_press_goes_on",
    "Anansi.Hud.no_press_none",
    "Anansi.Hud.press_elsewhere",
    "Anansi.Hud.edit_session_partial",
    "Anansi.Hud.ended_emptied",
    "Anansi.Hud.default_pressed",
    "Anansi.Hud.typed_for_another",
    "Anansi.Hud.ends_by_order"
   ],
   "note": "Proved for frames that draw the same controls in the same order; controls are known by the order they are drawn in, so text goes to another control when details are shown or hidden, and a press on a control drawn earlier does not end editing (negations proved)."
  },
  {
   "property": "C94",
   "status": "partial",
   "theorems": [
    "Anansi.Hud.selector_list",
    "Anansi.Hud.selector_button",
    "Anansi.Hud.offered_iff",
    "Anansi.Hud.picks_shown_partial",
    "Anansi.Hud.elsewhere_closes",
    "Anansi.Hud.clicks_add_twice",
    "Anansi.Hud.long_name_panics",
    "Anansi.Hud.none_left_stays",
    "Anansi.Hud.last_row_dead"
   ],
   "note": "Proved for names shorter than the column, rows below the list and one press in a frame; otherwise a profile is added twice, another is added, it panics or the last row is dead, and with no profile left the list is never closed (negations proved)."
  },
  {
   "property": "C95",
   "status": "partial",
   "theorems": [
    "Anansi.Wbm.bitmap_written",
    "Anansi.Wbm.bitmap_shown_partial",
    "Anansi.Wbm.plain_shown",
    "Anansi.Wbm.style_carries_on",
    "Anansi.Wbm.sub_starts_below"
   ],
   "note": "Proved without styles and for styles that are never empty, for bitmaps starting at row zero; a block with an empty style keeps the style of the block before it, and parts of bitmaps starting lower are shown one row too low (negations proved)."
  },
  {
   "property": "C96",
   "status": "partial",
   "theorems": [
    "Anansi.Frm.replay_shows",
    "Anansi.Frm.stop_live",
    "Anansi.Frm.frame_shows",
    "Anansi.Frm.update_seen",
    "Anansi.Frm.count_keys",
    "Anansi.Frm.keys_struck",
    "Anansi.Frm.polls_size",
    "Anansi.Frm.redraw_again",
    "Anansi.Frm.resize_seen"
   ],
   "note": "Proved for runs without a replay; sizes and results of system calls are given. While a replay goes on the client is shown the recorded size, Ctrl-R is left to it, and errors of the polls are lost (proved, see C114)."
  },
  {
   "property": "C97",
   "status": "proved",
   "theorems": [
    "Anansi.Wks.enter_order",
    "Anansi.Wks.notify_order",
    "Anansi.Wks.exit_order",
    "Anansi.Wks.life_order",
    "Anansi.Pfl.press_starts",
    "Anansi.Pfl.press_stops",
    "Anansi.Pfl.press_held",
    "Anansi.Pfl.stop_tries_all",
    "Anansi.Pfl.group_error",
    "Anansi.Pfl.spinner_in_range"
   ],
   "note": "Starting and stopping every profile when nothing fails; a failed sync keeps a profile marked active (C88)."
  },
  {
   "property": "C98",
   "status": "partial",
   "theorems": [
    "Anansi.Hud.log_drawn",
    "Anansi.Hud.log_taken",
    "Anansi.Hud.log_open_partial",
    "Anansi.Hud.log_closed",
    "Anansi.Hud.log_short_panics",
    "Anansi.Hud.log_few_overlap",
    "Anansi.Hud.log_few_title_dead",
    "Anansi.Hud.log_wide_skips"
   ],
   "note": "Exact cells proved for all logs of printable runes on screens with more rows than the viewer's lines and wide enough for the title; each line has its row when the log has three lines more than are shown and lines are narrower than the screen; otherwise lines and title are written over each other, the title is not where the click is, and short screens panic (negations proved)."
  },
  {
   "property": "C99",
   "status": "partial",
   "theorems": [
    "Anansi.Hud.hidden_transparent",
    "Anansi.Hud.shown_partial",
    "Anansi.Hud.overlay_partial",
    "Anansi.Hud.cursor_not_restored",
    "Anansi.Hud.overlay_in_client_style",
    "Anansi.Hud.press_reaches_client"
   ],
   "note": "Proved for screens with room for the header and the log (C91, C98); the cursor and style are not restored, the overlay is drawn in the client's style, and presses on it reach the client (negations proved)."
  }
 ]
}