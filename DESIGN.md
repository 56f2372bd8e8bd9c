# Formal model of selfbus/software-arm-lib in Lean 4

## 1. What is here

* `properties.jsonl` – the semantic properties (C01, C02, …).
* `lean/Verif/<Area>/Model.lean` – the model: total, computable Lean functions, each citing the
  file and lines in `/repo` it models and naming every simplification.
* `lean/Verif/<Area>/Spec.lean` – the small independent specifications used in the statements.
* `lean/Verif/<Area>/Lemmas*.lean` – helper lemmas and invariants.
* `lean/Verif/<Area>/Props.lean` – the property theorems, each with a non-vacuity `example`.
* `MANIFEST.json` – property → theorem names and status.
* `seeded/LOG.jsonl` – record of seeded-bug experiments against the theorems.

## 2. Trusted base

* Lean 4.33.0's kernel. Axioms allowed in any theorem: `propext`, `Classical.choice`, `Quot.sound`.
  No own axioms, no `sorry`, no `native_decide`, no `bv_decide`.
* The reading of the C++ code: the theorems are about the model; the only tie to the code is the
  cited, function-by-function transcription. The code is not executed here.
* C++ semantics assumed: `byte`/`uint8_t`, `uint16_t`, `uint32_t`/`unsigned int`/`unsigned long`
  (ARM Cortex-M0: 32 bit) wrap; conversions between them truncate; `int` is 32 bit.
  Accesses outside an array are a distinct outcome of the model wherever a modelled function can
  perform one (never silently totalised).
* Hardware and ROM calls (IAP flash routines, UART registers, I2C transfers, GPIO, timers, the
  1-Wire bus) are parameters or small explicit device models; each model file states the contract.

* Floats, used by C94–C97, C100, C101 and C131: a hypothesis `Ieee` on the rounding function and on `expf`, not an axiom
  (`Verif/Gas/Spec.lean`); `Verif/Gas/Binary32.lean` shows that binary32 rounding downwards meets it. C101 also needs
  `Nearest` (`Verif/Gas/Nearest.lean`, which shows that binary32 rounding to nearest meets both). Division by
  zero and roots of negative numbers are a distinct outcome (not a number); overflow is not modelled.

* `Verif/Bus/Model.lean` gives the link layer a private copy of each telegram and lets nothing happen inside the
  completion report. C104 shows that the code, with its one shared buffer and with connection control telegrams
  handed over again from inside the report, shows no other behaviour (same state, same log), so that the theorems
  about logs and states (C09–C14, C84, C85) carry over. The bus access rule
  (C93) is proved for both models (`Bus/SharedAccess.lean`). C92 is about one telegram and uses the first.

Areas without a paragraph of their own in section 4, with what their model leaves out:

* Checksums (`Verif/Crc`): all routines; a pointer and a count are the list of the bytes read.
* Flash (`Verif/Flash`): `iap.cpp` on a model of the ROM routines. Left out: the ROM's "prepared" flag (each function prepares
  itself), the check of the alignment of the source in RAM, `iapReadPartID`.
* Telegram fields (`Verif/Knx`): the accessors of knx_lpdu.h, knx_npdu.h, knx_tpdu.h and apci.cpp.
* Transport layer (`Verif/TL4`): `knx_tlayer4.cpp` with any application. Left out: debug output, `telegramCount`; time stands still
  during one call.
* Graphical display (`Verif/Lcd`): `graphical_eadogs.cpp` with the fonts. Left out: the constructor's pins and clock divider.
* Logging (`Verif/Log`): the formatted output of logger.cpp. Left out: arguments of 64 bits, widths and precisions above 2^30, the
  serial port behind it.
* SHT1x, SHT4x and dew points (`Verif/Sht`): the SHT1x driver with its pins, the conversions of all sensors. Left out: the time a pin
  takes, what stays in a variable that was not written.

Out of scope everywhere: debug/dump output, DEBUG-only code, compiler/linker behaviour, electrical
timing, the Java updater tool except for what C80–C83 cover.

## 3. Plan per property

| Property | Modelled | Proof |
|---|---|---|
| C01–C08 | `knx_tlayer4.cpp` complete: dispatch, connection control, direct data, actions A00–A10, loop, buffers, send notifications; application callback is an arbitrary function parameter | step invariants by induction over all event histories; C02 by a history invariant; C03 by a refinement of a joint system with an adversarial channel |
| C09–C14 | `bus.cpp`: `prepareTelegram`, `handleTelegram`, character encoder/decoder of the timer interrupt, retry bookkeeping | algebra of xor; finite tables lifted by lemmas; invariants over reception histories |
| C15–C19 | `com_objects.cpp` and the BCU1/BCU2 variants: flags, sizes, values, group telegram building and processing, send scan | frame lemmas; round trips; fairness by a ranking argument on the scan position |
| C20 | `addr_tables*.cpp` | list search against membership; over-read at the end of the table is a finding |
| C21 | group rate limit part of `BcuDefault::loop` | invariant over loop schedules |
| C22 | `processApciMemoryOperation`, user RAM/EEPROM access, address ranges | round trip and frame theorem over the splitting loop |
| C23 | `processBroadCastTelegram` | decision logic |
| C24–C26 | load-state machine, property access | decision logic, round trips |
| C27 | `datapoint_types.cpp` | loop invariant of the normalisation, integer arithmetic |
| C28, C29 | `userEeprom.cpp` on a NOR-flash model (erase → 0xFF, program in chunks, crash between chunks) | refinement to "last saved image"; crash-point case analysis |
| C58 | the saving decision of `BcuDefault::loop` with `UserEeprom::modified`/`writeDelayElapsed` | case analysis over any call history |
| C30, C31, C59 | `mem_mapper.cpp` on the same flash model | refinement to a byte map; injectivity invariant; induction over the bytes of a block |
| C32, C33 | `timeout.h`, `timer.h`, `debounce.cpp` | modular arithmetic, induction over samples |
| C34 | `buffered_stream.*`, `serial.cpp` with main-program steps and interrupts interleaved arbitrarily | refinement to two FIFO queues |
| C35 | `print.cpp`, `stream.cpp` | digits induction |
| C36, C37 | `utils.cpp`, `bits.h` | list lemmas, modular arithmetic |
| C38–C42, C45 | `update.cpp`, `flash.cpp`, `boot_descriptor_block.cpp`, `iap.cpp` over a flash model with IAP contract | invariants over all command sequences, address arithmetic in 32-bit |
| C43, C47 | all CRC routines | linearity over GF(2) + full finite byte table, bijectivity of the shift register |
| C44 | `decompressor.cpp` | simulation of the byte automaton by a command-level semantics |
| C46, C50 | `OneWireSearch`, `wireSearch` over a bus of ROM codes (wired-AND) | lexicographic-successor argument over the ROM tree |
| C60, C61 | `ds18x20.cpp` over the same bus | induction over the devices found; integer arithmetic of the registers |
| C64 | `com_objectsSYSTEMB.cpp`, `addr_tablesSYSTEMB.cpp` with `com_objects.cpp` | as C15–C19, C55–C57 on the System B tables |
| C65 | `app_main.cpp` of the bootloader updater, round by round over the IAP model, with the image itself in flash | invariant over the rounds; the power may fail after any round |
| C66 | `spi.cpp` over a model of the SSP controllers (FIFOs, shift register, receive overrun) in which frames complete at any time between two register accesses | invariant over all accesses: words on the wire, in the FIFO and to be sent form the block, the received words are a sublist of the answers; a progress measure for the return |
| C70 | `i2c.cpp`, master functions in polling mode, over a model of the I2C controller (status codes, STA/STO/SI/AA) and of a bus whose slaves and other masters are arbitrary functions of everything that happened before | the transactions I2C allows are inductive relations (`I2c/Spec.lean`) that do not mention the driver; the driver with the controller is followed state by state, by induction on the message |
| C71 | the drivers of SHT4x, SHT2x, SGP4x, CCS811 and BH1750 over the I2C model, with time as an arbitrary function of the calls of `millis()` | the transactions are those of `I2c/Spec.lean`; `Polling` describes repeated reading within a time limit; `WordsChecked` is the CRC-8 as polynomial remainder (`Crc/Spec.lean`). Exact results for every sensor behaviour; several parts are false of the code |
| C72 | `delay`, `delayMicroseconds` (`Timer/Model.lean`); the times of the readings of SysTick and of the milliseconds are arbitrary increasing functions, so every interruption between two readings is covered; a loop is unrolled with fuel and "returns" means for all large enough fuel | lower bound without any assumption on the gaps, upper bound by a decreasing measure for gaps below one millisecond; false for the check that SysTick is on: `C72_delay_hangs` |
| C73 | the configuration functions of `Timer` as functions on the registers | read back what was set, frame on all other bits, by extensionality on bits; counterMode against the manual's CTCR (`Spec.ctcr`); the clearing part is false of the code: `C73_clear_right_iff` |
| C74 | the pin functions on the GPIO and IOCON registers (`Pin/Model.lean`), with the pins' constants, the register table and the layout of the IOCON block as in the sources | `Pin/Spec.lean` has the chip's table of functions per pin, the location registers and the meaning of the modes; tables are compared for all 42 pins and 23 functions by evaluation in the kernel, everything else (options, register contents, masks) is proved for all values; several parts false of the code |
| C75 | The level of the pin at each reading as an arbitrary function; `pulseIn`, `expectPulse` and `readData` over it (`Verif/Pin/Pulse.lean`); floating point numbers as hundredths. | Induction over the length of a run; 40 pulses as five chunks of eight; soundness by inverting the accepted run. Exact result; partial for the bits of fast processors. |
| C76 | What the master does to the line as a list of segments with durations; the level of the released line as an arbitrary function of that list; the length of each delay arbitrary (`Verif/Wire/Bits.lean`). | Exact trace of each function by induction over bits and bytes; slots of the data sheet as a separate predicate on segments. Partial: the tolerances are hypotheses. |
| C77 | The registers of the UART with the address shared by DLL/THR and DLM/IER (`Verif/Util/Uart.lean`); flush over the interleaving model of C34. | Exact register contents after begin; rate as a fraction compared with the one wanted by arithmetic over all rates; flush from the transmit invariant of C34. Partial: rates after 460800/576000, last byte. |
| C78 | The control register of the converter, all accesses recorded, data registers an arbitrary function of the number of accesses (`Verif/Pin/Analog.lean`). | Bitwise characterisation of the three values written; induction over the looks and over the sequence of reads. Partial: bus clock, overrun, hang. |
| C79 | The loop with its reads recorded (`Verif/Util/Arrays.lean`). | Induction over the elements left. |
| C80 | `Boot/DiffTool.lean`: the tool's search, command choice, page bookkeeping and split into telegrams (Java), on top of the device model of C44 | loop invariant: what the tool believes to be in flash and window is the new image up to the current page and the old one from there on, the stream so far is the wire format of well-formed commands that denote the page so far; then induction over the pages with C44 for each page |
| C81 | `Boot/FullTool.lean`: the tool's retries, block loop and descriptor (Java) as a program over a channel that decides the fate of each attempt, on top of the device model of C38-C45 | rule for a chain of attempts (any property kept by executed and lost attempts), pieces repeated at least once each (`Rep`) so that the right length means the right data, loop invariant (everything before the current block is in the flash, buffer empty), CRC burst detection for a repeated piece of the descriptor, C45 for the start; induction with C40/C42 lemmas for the loss-free run |
| C82 | `Boot/Hex.lean`: line splitting, record parser, base addresses, region list with merging and sorting, buffer writer (Java); spec `Boot/HexSpec.lean`: the records of the Intel format and the bytes they place | parser inverts the record writer; region list covers exactly the placed addresses (invariant over the records), sorted disjoint regions end at the greatest address; buffer = last write per address; checksum argument for one character; composition with C81 |
| C83 | `Boot/Hex.lean`: `dumpToSerialinIntelHex` with the digits of `print` (C35), reader of C82 | each line is a line of the spec for one data record (checksum arithmetic), the records place the dumped bytes; then C82; parity of the characters for the refusal |
| C84 | `Bus/Model.lean` (interrupt handler of C09–C14); spec `Bus/ArbSpec.lean`: the interrupts of a character that is sent, of one that is overruled, and which telegram wins | invariant over the pulses of a character (next zero bit and rest of the character), the character received so far equals the common bits (complete table over characters and positions), then the receive automaton of C10 from the middle of the character; lists with a first difference for 'exactly one wins' |
| C85 | `Bus/LinkSpec.lean`: two copies of the link layer of C09–C14, any interleaving, common log, and the condition `Line` on what the line may do | induction over the run from its end: where the one delivery stands in the log, last occurrences of 'begin of transmission' and 'begin of reception', with C12 (no duplicate), C14 (frames and repetitions, success needs an ACK) and the invariant that a device about to acknowledge has delivered |
| C86 | composition of `Com/Model.lean` (both devices), `Bus/Model.lean` (both link layers) and the line of C85 | C16, C57, C85, C19 and C17 put together; the frame on the wire is the buffer with sender address and check octet, the received buffer holds the delivered frame |
| C87 | `Boot/Handover.lean`: the RAM word, the copy of the vector table word by word, the jump; a chip with power-on, restart and work of the programs | invariant over histories: the reserved word is 0 or the application's stack pointer |
| C88 | the model of C67-C69; `Dev/SpecDownload.lean`: the byte the executed memory writes leave, from the telegrams alone | each step of the loop executes no service or one, whose effect on the byte is that of the specification; induction over the history, then C68 and C69 |
| C89 | `i2c.cpp`, slave functions, over a model of the controller in slave mode (own addresses and masks, AA, status codes) and masters that do anything | what a slave has to serve and what it took is defined from the setup calls and from what is seen on the bus (`I2c/SpecSlave.lean`); invariant over the actions of the masters, induction over the history |
| C90 | `ds2482.cpp`, all but the search (C50) and the CRC (C47), over a model of the chip with arbitrary busy times and devices | refinement of a line without registers and waiting (`Wire/SpecBridge.lean`), call by call, then induction over the calls |
| C91 | composition of `Com/Model.lean` (both devices), `Bus/Model.lean` (both link layers) and the line of C85, in both directions | C15, C57, C85, C56, C85, C55 and C17 put together; the answer is what the buffer of the answering device holds |
| C92 | Bus/TimeSpec.lean: timer hardware of a listening device (`hear`), two clocks compared through distances (`SameGap`); sender as in C10 (`txMany`) | the timer fields are followed through each character; frame and acknowledge are then those of C13 and C14 |
| C93 | Bus/AccessSpec.lean: the device with its timer under arbitrary timed events (`tnext`, `Possible`) | invariant per state relating the time of the last edge to the time of timer zero and the match (`fits`), through every state of the handler |
| C94 | Gas/Model.lean over an abstract arithmetic, Gas/Spec.lean: rounded reals with not-a-number | invariant over histories: numbers everywhere, deviation >= 0, low pass <= 500.25; error bounds of each stage |
| C95 | Gas/Model.lean, Gas/Spec.lean | frame lemmas per call, exactness of integers |
| C96 | Gas/Typical.lean | bounds of exp at the centre of the two curves from log 2 and e, error bounds |
| C97 | Gas/Learn.lean | invariant offset + rest in [lo - 1/64, hi + 1/64]; monotone rounding prevents drift, one step moves at most to the measured value |
| C98 | Lcd/Model.lean, Lcd/Font.lean (the bytes of the font), Lcd/Spec.lean (display controller, canvas) | simulation: the bytes sent by a call take the controller to the canvas of the call |
| C99 | Sht/Model.lean, Sht/Spec.lean (the sensor as an automaton on the two lines) | simulation: between calls the sensor is idle and the pins at rest; each call step by step, with induction over the waiting loops |
| C100 | Sht/Convert.lean, Sht/Num.lean: the float expressions over any arithmetic, then over rounded reals as in C94 | error bounds carried through each operation; mono and exactness of the rounding for the ranges |
| C101 | Util/PrintFloat.lean over any float arithmetic; Gas/Nearest.lean: rounding to nearest | the fraction is exact; error bound and largest value carried through the loop; texts by C35 |
| C102 | Gas/Sgp4x.lean: the object over the I2C master of C70 and the algorithm of C94 | one exchange per call by C71; the object holds what the log of answers tells, by induction over the history; range by C94 |
| C103 | Com/InStep.lean: two devices, their link layers and the line over any history | invariant: the last telegram the receiver got from j carries the value i has; a telegram dropped as a repetition carries the same value; distance of the scan as in C18 |
| C104 | Bus/SharedModel.lean: the one buffer, its state and the link layer's pointer as shared memory; the main program one access at a time; the completion report inside the interrupt | invariant on who owns the buffer; simulation by Bus/Model.lean (a hand-over inside WAIT_50BT is simulated by report, queue, test of the state and the same timeout once more); induction on the number of hand-overs for (e) and (f) |
| C105 | Sht/DewModel.lean: the four functions over any arithmetic and any logf; Sht/DewSpec.lean: a dew point is a temperature whose saturation pressure is the vapour pressure | error propagation through the rounded formula; the reciprocal of b + t as a coordinate in which the humidity is a shift, for uniqueness, order and Lipschitz bound |
| C106 | Dev/PropModel.lean (`propDesc`, `propRead`), Dev/Model.lean; Dev/Spec106.lean: the table of all properties and the telegrams | agreement of the two tables by kernel evaluation of the whole (finite) table, then for all states and requests |
| C107 | Boot/Telegram.lean: BcuUpdate as the application of the transport layer model, with the telegrams it writes; Boot/TelegramSpec.lean: messages, answers, sessions | a message depends on its own bytes only; induction over the histories of the transport layer; composition with C03, C38 and C39 |
| C108 | Boot/FullCommands.lean: the commands of the tool as lists | each command succeeds in the state its predecessors lead to (C38, C40, C42, C44, C45, C80); C107_session for the transport; C108_tool_commands relates the list to the model of the tool; Boot/PropsConfirmed.lean: the bootloader as an application of C109, so the answers taken are those of the messages, and what success answers say about the flash (C40, C45) |
| C109 | TL4/Dialogue.lean: the system of C03 with the way back (answers, their repetitions, the client's acknowledgements) | invariant: the queued answers are those with the numbers the client has not yet acknowledged, every data telegram on the bus carries one of them; induction over the steps |
| C110 | TL4/Dialogue.lean, TL4/Progress.lean (undisturbed runs, settled states) | forward execution of the device model in each phase; from a reachable state drop what is on its way, repeat the request, repeat the answer, acknowledge it; the invariant of C109 says which of these are needed |
| C111 | I2c/Ccs811.lean (all functions with the WAKE pin, the waiting and the transfers) over I2c/Model.lean; specification `Paced` in I2c/PropsCcs.lean | composition of the specifications of the I2C calls (C70) along each function; induction over the calls |
| C112 | Dev/PropModel.lean (load control), Crc/Spec.lean; specification Dev/Spec112.lean (list of replaced bytes, lowest address in use, tables apart) | unfolding of each branch to the list of bytes; induction over the search for the lowest address; CRC by C47's shift register |
| C113 | Flash/Size.lean over the ROM of Flash/Iap.lean; Eeprom/Model.lean `sectorAddr` | induction over the search loop |
| C114 | Pin/Fatal.lean (the loop cut after any number of rounds, SysTick clock by clock) over Pin/Model.lean | induction over the rounds and the clocks, C74 for the pins |
| C115 | Boot/Startup.lean (memory of words, section table in the memory) | induction over the words of a section and over the table |
| C116 | U8g/Model.lean (page buffer of eight rows, clipping, figures, rotation devices, picture loop, PCD8544), specification in U8g/Spec.lean | each figure paints exactly its points on the current page (Paint, Figures), induction over the calls and over the pages |
| C117 | U8g/Line.lean (Bresenham loop with 8 bit error term), specification IsFlat/IsLine in the same file | loop invariant: error term = half the length - steps * short side + rows * long side, within [0, length) |
| C118 | U8g/Model.lean (circleSteps, circleSection, discSection, drawCircle, drawDisc), specification OnCircle/InDisc/Chosen in U8g/Spec.lean | loop invariant: decision value = (x+1)² + (y-1/2)² - r² rounded, each point the nearest one; then mirroring and the picture loop of C116 |
| C119 | U8g/Model.lean (drawRFrame, drawRBox), specification inCorner/OnRFrame/InRBox in U8g/Spec.lean | the pieces' sets of points (C118's quarters, lines, boxes) are joined and compared with the figure by cases on the corner a point is in |
| C120 | U8g/Model.lean (getGlyph … getStrWidth), specification Font/StoredAt/TextAt/turned in U8g/TextSpec.lean | the search loop follows the list of entries (induction over the entries left), the glyph loops draw the set of lit points (induction over bytes and rows), the text by induction over its codes; then C116's page loop |
| C121 | U8g/Model.lean (hxbmRaw, xbmLoop, drawXbm), specification Covers in U8g/Spec.lean | induction over the bytes of a row and over the rows; then C116's page loop |
| C122 | Log/Model.lean (number, formatLoop, vsnprintf, serPrintf), specification Item/Directive/showAll/holds in Log/Spec.lean | every piece of the code appends a text to the output that does not depend on the buffer (induction over the format); the parser reads back the written conversions (induction over flags and digits); the digit loop gives the numeral (induction over the number) |
| C123 | Bus/PropsSpike.lean (filterLoop), Bus/Model.lean (isr, isSpike) | induction over the readings; induction over the events with the states equal but for the note about the timer |
| C124 | Bus/Model.lean (canPause, step) | invariants over all histories: the log has an unreported transmission exactly if the object has noted one, the output is off outside of the sending states; a measure that every timeout decreases |
| C125 | Util/StreamTime.lean (numbered moments with time and number of arrived bytes) | induction over the rounds of the loops; the timed functions refine the untimed ones of Util/Text.lean |
| C126 | Boot/Update.lean (handle, dispatch, the requests for information), specification requests/answers/versionText in Boot/PropsInfo.lean | case analysis over the message; the table of commands is searched for all 256 codes; address arithmetic |
| C127 | Util/RtcEpoch.lean (epochTm), specification hourOfDay/tmOf | composition of the round trips of C48; case analysis of the hour |
| C128 | Knx/Frame.lean, Knx/Header.lean; specification controlBits, header, code, sequenceBits | arithmetic of the fields; the control byte and byte 6 by complete case analysis |
| C129 | Dev/HwType.lean on the property model of C26 | the field's ten bytes are disjoint from all other properties, by complete case analysis of the property tables; the answers by congruence of the copies |
| C130 | Dev/Region.lean; specification Holds | arithmetic modulo 2^32 |
| C131 | Sht/Sht4x.lean on I2c/Sensors.lean (C71) and Sht/Convert.lean (C100); specification Reports, History | composition of C71 and C100; induction over the history |
| C62, C63, C67, C68, C69 | `BcuDefault::loop` with `BcuBase::loop` (transport layer, receive, button, restart, saving; interrupts between the statements); `begin` of all types, power failures between events | invariant over all histories; composition of the loop's parts; C33 for the button |
| C48 | `ds3231.cpp` register encode/decode | round trip over the valid ranges |
| C49 | `digital_pin_shift.cpp` | round trip |
| C51, C52 | send-buffer management of `knx_tlayer4.cpp` | ranking over states; history invariant |
| C53 | out-of-bounds outcome of the bootloader model | invariant over telegram sequences |
| C54 | `_readBytesUntil`, `findUntil` of `stream.cpp` | list induction |
| C55–C57 | `processGroupTelegram`, `sendNextGroupTelegram` complete for BCU1/BCU2/0701/0705 | effect of the association loop as a set of objects (`Takes`) |

Properties the code violates are kept: the negation is proved with a concrete witness, the
theorem that does hold carries the suffix `_partial`, and section 4 records the disagreement.

## 4. Findings (properties the code does not have as stated)

Each item is a theorem with a concrete reachable witness unless marked (read).

Transport layer (`knx_tlayer4.cpp`):

* C04 `C04_undefined_ack`: control codes 0x82/0x83/0xC0/0xC1 are taken for T_ACK/T_NAK (the
  test `!(tpci & T_ACK_PDU)` is never true there).
* C04 `C04_nak15_ignored`: T_NAK with sequence number 15 (byte 0xFF) is never recognised, because
  `sequenceNumber` returns -1/255 for it.
* C52 `C52_third_response_overwrites_second`: the third request accepted before the first response
  is acknowledged overwrites the second prepared response.
* (read) T_NAK with the matching number in OPEN_IDLE closes the connection; a data telegram with
  TPCI bits 00 but nonzero sequence bits is treated as numbered data; `disconnect()` sends a
  T_DISCONNECT even when closed.


Bootloader (`update.cpp`, `flash.cpp`, `decompressor.cpp`, `boot_descriptor_block.cpp`):

* C38 `C38_id_is_disclosed`: the id needed to unlock is answered to REQUEST_UID while locked.
* C42 `C42_inverted_range_erases`: an erase request with end < start erases pages around both ends
  and answers success.
* C40 the end address of a programming request wraps at 2^32; such a request is refused only by the
  ROM (status 0x5d) after the buffer was dropped (this is why `BufStep` is a relation).
* C53 `C53_decompressor_writes_behind_page`, `C53_decompressor_reads_behind_saved_pages`: the
  decompressor performs no bounds check. `C53_program_copies_ram_behind_buffer`: programming more
  than 1024 bytes reads up to 15 bytes behind the download buffer.
* C45 `C45_short_descriptor_acknowledged`: a descriptor request announcing fewer than 16 bytes is
  answered with success although nothing was installed. `C45_unlucky_image_size`: with an image
  size of 1 modulo 256 `std::align` leaves the area unaligned and no descriptor can be installed.
* (read) the result of the erase is overwritten in `pageCompletedDoFlash`; a raw command of length 0
  consumes one byte; REQUEST_BOOT_DESC builds its answer from a flash pointer.

Utilities (`Verif/Util`):

* C27 `C27_invalid_not_encodable`: the value that the invalid code 0x7FFF denotes numerically cannot
  be encoded (it is mapped to the invalid code itself).
* C32 `C32_long_timeout_expires_at_once`: durations of 2^31 ms and more expire at once.
  `C32_missed_after_half_range`: an expiry not polled for 2^31 ms is missed.
* C33 `C33_change_at_zero_lost`: a change sampled while the millisecond counter is 0 is not timed.
  `C33_init_blocks_value`: `init` does not reset the candidate value.
* C34 `C34_receive_race`: `++readHead; readHead &= MASK` on a volatile index: an interrupt in between
  that finds two bytes overflows the ring and 128 bytes are lost.
* C35 `C35_too_many_digits_overflow`: more than 33 digits overrun the conversion buffer.
* C37 `C37_short_id_not_deterministic`: ids shorter than 16 bytes mix uninitialised stack memory in.
* C48 `C48_am_pm_wrong_in_24h`, `C48_hour_zero_accepted`, `C48_midnight_is_noon` (GetEpoch),
  `C48_alarm_selection_sticks`, `C48_turn_on_does_not_enable`, `C48_enable_oscillator_clears_status`,
  `C48_negative_temperature_wrong`. (read) `GetTemperature` reads four bytes into a two-byte array.
* C54 `C54_find_misses_occurrence`: `find("ab")` fails on "aab".

Communication objects (`Verif/Com`). The user memory is one map from device addresses to bytes; `Configured` (Com/Spec.lean)
says that it holds the byte image of the tables ETS writes. Modelled: BCU1, BCU2, masks 0701/0705; System B in a model of its own
(`Com/SystemB.lean`, `Com/SystemBSpec.lean`).

* C15 `C15_wide_flags_leak`: flag values of 16 and more given to an even object change its neighbour.
* C19 `C19_wide_bits_corrupt`: values above 63 in objects of at most 6 bits are ORed into the service code.
* C20 `C20_reads_past_end`: the address search reads one entry behind the address table.
* (read) a receiver does not check the telegram length against its object size and takes bytes of an older telegram;
  after sending the object flags are set to the error state (0x1) although the comment says transmitting; `addrCount()` of
  BCU2 combines the count with the high byte of the own address; responses to read requests bypass the rate limit.
* C64 `C64_nothing_reported`, `C64_nothing_sent`: on System B `objectCount` reads the high byte of the number of objects, so with less
  than 256 objects no update is ever reported and no value is ever sent. `C64_flags_overwrite`: the low byte of the number and the
  configuration of object 1 are taken for the address of the flags; with 6 to 8 objects it lies in the user RAM and writing one object
  changes the value of another. `C64_long_value_not_sent`: a value of more than 14 bytes is answered with a broken telegram.
  `C64_reported_at_most`, `C64_sent_at_most`: with 256 objects and more at most the numbers 0, 1 and 2 are reported or sent, and
  `firstObjectAddr` uses the one-byte association table, so nothing is sent with less than 256 associations. `C64_addr_count`: the bytes
  of `addrCount()` are exchanged. (read) the copy of a value of more than 15 bytes overruns the send buffer.

Link layer (`Verif/Bus`). The whole interrupt handler `timerInterruptHandler` and the interface functions are modelled; every
interrupt carries arbitrary timer, capture and pin readings (`Irq`), and the history of interrupts and calls is arbitrary.
Simplification: the timer flags are sampled once per interrupt. Not modelled: BUSMONITOR, DUMP_TELEGRAMS, DEBUG_BUS.

* C12 `C12_new_message_lost`: the test for a repeated frame ignores the check octet and looks at the last frame that was stored,
  whatever happened in between; a new message that is itself a repetition (first copy lost) with the same content as the previous
  message is dropped although it is new.
* C13 `C13_overlong_accepted`: a frame with more than 23 characters is accepted if its first 23 characters happen to be a
  correct frame: the excess characters only set an error flag that nobody tests.
* C14 (read) `collisionBitCount` underflows when a collision is detected before the first data bit; the shift distance is then
  undefined in C++ (the result only delays the retry).

User EEPROM (`Verif/Eeprom`). A ROM call may fail at any time and leave arbitrary bytes in the range it works on; this covers a
power failure during a save.

* C28 the last byte of the EEPROM is the "page in use" mark: whatever is stored there reads 0 after a save (`sealed` in Spec.lean).
* C29 `C29_next_save_corrupts`: a page left half programmed by a power failure is not erased before the next save uses it; that save
  ends in `fatalError()` and leaves a corrupted image.
* C29 `C29_needs_mark_last`: pages carry no checksum, only the mark in the last byte. The proof assumes that an interrupted
  programming does not change that byte before the rest of the page is complete (`MarkLast`; ascending order is enough). This is an
  assumption about the flash controller; without it the property is false. C29 is therefore claimed as partial.
* C29 `C29_erase_loses_image`: for masks 0701, 0705 and System B the sector holds a single page, so every save erases the only
  valid image first; a power failure then loses it. The other devices have the same gap on each wrap-around.
* C58 `C58_delay_ineffective`: the 50 ms write delay has no effect (`elapsed` starts as `userEepromModified`, which is true whenever
  the loop asks), so every change is written at once.

Virtual memory in flash (`Verif/MemMap`). All of `mem_mapper.cpp` except `memoryPtr`. The theorems assume working flash and
*disciplined* use (`Disciplined` in Spec.lean): without `autoAddPage` only mapped addresses are written; `addRange` and restart
only when nothing is pending; ranges lie inside the address space and are smaller than 64 KiB; no restart after an `addRange` that
ran out of memory halfway. Each restriction is needed:

* C30 `C30_unmapped_write_destroys_page_0`: without `autoAddPage` a write to an unmapped address reports success and the next
  `doFlash` overwrites flash page 0 (interrupt vectors).
* C30 `C30_addRange_drops_pending`: `addRange` discards unsaved data. `C30_full_range_is_ignored`: a range of 64 KiB is silently
  ignored. `C30_range_past_end`: a range behind the address space accesses memory behind the table.
  `C30_out_of_memory_range_lost`: an `addRange` that runs out of memory leaves pages that disappear at the next restart.
* C30 `C30_failure_in_flush_loses_all`: a power failure while the table is rewritten loses everything saved so far.
* C31 `C31_interrupted_table_write`: after a power failure while the table is programmed two virtual pages can share a flash
  page, namely the page of the table. `C31_one_page_area`: with an area of one page, pages outside the area are used.
* C59 `C59_order_matters`: `endianess` is not initialised by the constructor, yet decides the values read.
* C59 `C59_range_gap`: `isMappedRange` looks at the two ends only. `C59_mapped_outside`: with `autoAddPage`, `isMapped` is true for
  every address, also outside the address space.

Bootloader updater (`Boot/BlUpdater.lean`). Not modelled: that the updater's code is itself in flash.

* C65 `C65_incomplete_started`: the sector with the checksum word is written first, so after a power failure the ROM starts an
  incomplete bootloader instead of the serial download. `C65_failed_erase_ignored`: no result of a flash operation is looked at.
  `C65_overlapping_image`: an image reaching into the replaced sectors is erased before it is read. `C65_updater_started_again`: if the
  new image ends in the last page of a sector, the boot descriptor survives; with a bootloader of the same size the updater is
  started again after the reset, and so on without end.

SPI (`Verif/Spi`). Modelled: `transfer`, `transferBlock`, `continueBlockTransfer`, `finalizeBlockTransfer`, the interrupt handlers and the
settings, over an SSP controller whose frames complete at any time. Not modelled: cutting words to the data size, slave select,
an interrupt during `finalizeBlockTransfer` of an asynchronous transfer (the header says to wait for `finished` first).

* C66 `C66_port1_hangs`: `continueBlockTransfer` writes to `LPC_SSP0->DR` also for port 1 (spi.cpp:195); a block transfer on port 1 sends
  nothing there and never returns. `C66_overrun_hangs`, `C66_overrun_possible`: the FIFO is refilled without regard to the words not yet
  read; if the program is held up, a received word is lost and the transfer waits for it forever.

Management services of a device (`Verif/Dev`). Modelled: user RAM, user EEPROM (its RAM copy), virtual flash memory, memory
services, interface object properties, load state machine, broadcast services, restart, for the five device types BCU1, BCU2, MASK0701,
MASK0705, SYSTEMB. `undef` records every access outside an array and every use of a null pointer. Not modelled: alignment (SYSTEMB
keeps 16 bit table addresses at the odd offsets 0x21 and 0x23, and the code reads them through a `uint16_t` pointer), callbacks,
`setUserRamStart` (but see C130), overrides by the user's subclass.

* C128 `C128_sequence_15`: the sequence number of a negative acknowledge with the number 15 is read as 255.
* C129 `C129_written_back`: a hardware type that a tool reads and writes back is reversed afterwards.
* C130 `C130_word_before`: `getUInt16` of the EEPROM and the RAM reads outside the array for the address just before the memory.
* C22 `C22_status_alias`: on the newer masks the one-byte memory request at 0x60 reaches the system status, which lies at 0x65c.
  `C22_autoAddPage_hides`: a mapper with `autoAddPage` hides EEPROM and RAM. `C22_long_read`: counts 13 to 15 corrupt the length
  field, 14 and 15 write behind the 23-byte buffer. `C22_count_trusted`: the count is not compared with the telegram's length.
  A failing write keeps the bytes before the first missing address (`C22_write_partial` says so exactly).
* C23 `C23_loading_without_table`: while the address table object is in state loading, an individual address write also stores the
  address at the place the table's address names, without a check; if that place is no memory the code follows a null pointer. The
  two services that address a device by its serial number act without programming mode, as KNX prescribes.
* C24 `C24_event_masked`: only three bits of the event count, so 9 acts as "start loading". `C24_property_not_saved`: a load state
  written by property does not mark the EEPROM for saving. `C24_systemb_null`: on System B "load completed" and "unload" of object 0 and
  "load completed" of object 5 use a null pointer. `C24_fill_overwrites`: a relative allocation with filling writes behind the new
  block, e.g. over the load states. Only start and end of an absolute data segment are checked, not what lies between.
* C25 (observation, `MakesLoaded`, `TableOverState` in `Dev/Spec25.lean`): an object becomes "loaded" not only by the load event, but
  also by a memory write over the byte that keeps the load state, by the filling of a System B allocation, and by an address write while
  the address table is being loaded and lies over the load states.
* C26 `C26_generic_reversed_partial`: a writable property of several bytes that is not a number (hardware type, memory control blocks,
  program versions, 0xcc) is stored backwards and read forwards. `C26_serial_overwritten`: the first element is not checked, so writing
  the "third element" of the service control changes the read-only serial number. `C26_table_constant`: property 23 is marked writable
  but is a constant of the program. `C26_start_high`: the upper bits of the first element are shifted by 4 instead of 8.

* C62 `C62_refused_but_restarts`: a master reset with erase code 2 … 7 is answered "unsupported erase code", but the restart is
  scheduled nevertheless.
* C68 `C68_property_load_lost`: a load control by property changes the load state in the EEPROM without marking it as modified
  (propertiesBCU2.cpp `loadProperty`; the load control by memory write does mark it), so it is not saved. `C68_virtual_memory_lost`: the
  loop calls `flushUserMemory` only for a modified EEPROM (bcu_default.cpp:151-154); what was written only to the virtual memory is lost
  at a power failure, however much later. `C68_unmarked_never_saved` is the general statement.
* C69 `C69_interrupted_download`, `C69_interrupted_download_history`: `BcuDefault::begin` sets the run error to 0xff
  (bcu_default.cpp:93), so a `BCU1` runs its application after every start, also after a download which a power failure interrupted
  (the code has a `\todo` there). Observation: a start while the address table is being loaded writes the individual address into the
  table's first entry.

I2C (`Verif/I2c`). Modelled: `handleMasterXferState`, the polling loop, `Chip_I2C_MasterTransfer`, `MasterSend`, `MasterRead`,
`MasterCmdRead`, `MasterWriteRead`, `SetClockRate`. The controller and the bus are part of the trusted base (written after the LPC11xx
manual). Not modelled: interrupt mode, a clock held low for ever; the device as slave is C89.

* C70 `C70_refused_byte_counted`: the bytes left are counted down when a byte is handed to the controller, so a refused byte counts as
  "successfully transfered" (i2c.h:391). A refused last byte cannot be told from success.
* C70 `C70_empty_transfer`: with no bytes to send the address is sent for *reading*, and the byte read is stored at `rxBuff`, which is 0
  for `MasterSend` and the end of the buffer for `MasterRead`.
* C70 `C70_lost_arbitration`: the loop `while (… == I2C_STATUS_ARBLOST)` starts again with the advanced pointers. The slave gets the rest
  of the message as if it were a message; if the arbitration was lost in the last byte, the second attempt is a read.

I2C sensors (`Verif/I2c/Sensors.lean`). Modelled up to the integers read; the gas index algorithm is C94–C96. Not modelled: floating point conversions, waiting with `delay`, the WAKE pin.

* C71 `C71_sht4x_wrap`: `while (millis() <= timeout)` gives up at once in the last 300 ms before the wrap of `millis()`.
* C71 `C71_sht4x_init`: `init` is true if the sensor acknowledges its address and refuses the reset command (from C70).
* C71 `C71_sht2x_single_attempt`: `(millis() - timeout) > 0` is unsigned, so the loop ends after the first failed reading.
* C71 `C71_sht2x_humidity_zero`: failure is reported as humidity 0, which is also measured.
* C71 `C71_ccs_baseline`: `getBaseline` (like `readStatus`, `readErrorID`) ignores the result of the transfer and returns an
  uninitialised variable if nothing answers.
* C71 `C71_bh_mtreg`: of the three transfers of `setMTreg` only the last is checked.
* After errors the drivers call `i2c_lpcopen_init` to reinitialise the bus; it does nothing once the bus is initialised (i2c.cpp:125-130).

Timers (`Verif/Timer`). Not modelled: the two microseconds `delayMicroseconds` reckons for its call and return, interrupt priorities,
`start`, `value`, `prescaler` (plain writes of one register).

* C72 `C72_delay_hangs`: `delay` checks `!SYSTICK_ENABLED && !SYSTICK_INTERRUPT_ENABLED`; with only one of the two on it waits for ever.
* C72 `C72_delay_one_short`: `delay(1)` called right before a restart of SysTick returns after two clocks.
* C73 `C73_clear_right_iff`: `counterMode` tests `clearMode & (CAP1 | FALLING_EDGE)` for any bit; clearing works as asked for only with
  CAP1|FALLING_EDGE (the documented example); CAP0|FALLING_EDGE and CAP1|RISING_EDGE select the falling edge of CAP1 and CAP0|RISING_EDGE the
  rising edge of CAP1.

Pins (`Verif/Pin`). Not modelled: being interrupted between reading and writing a register (`DIR`, `IE`), `portMode` with pin
numbers from 12 on, electrical behaviour.

* C74 `C74_ssel_not_moved`: `pinMode` sets SSEL1_LOC to 0 for PIO2_2, which has no SSEL; the pin meant is PIO2_0, which is never selected again.
* C74 `selected`: for DSR, DCD, RI (several pins each) no location register is written at all.
* C74 `C74_port_mode_function`: `portMode` computes the function and does not use it: function 0 and analog mode are selected, so PIO0_0 becomes the
  reset input, PIO0_10 and PIO1_3 the debug pins, and PIO0_11, PIO1_0, PIO1_1, PIO1_2 get a reserved function.
* C74 `C74_port3_overwrites`: the table has 0 for the missing pins of port 3, which is the offset of PIO2_6.

Pulses (`Verif/Pin/Pulse.lean`). Not modelled there: the start signal, floating point (C100) and the dew point (C105).

* C75 `C75_dht_truncated`: the lengths of the pulses are kept in `uint8_t`. If a low part takes about 200 readings and the high part of a one about 280,
  the one is seen as 24 < 200; all bits are zero, the checksum (0) is right and 0 % / 0 degrees are reported as a valid reading.
* C75 `Countable`: a part of exactly 256 readings is taken for a timeout.
* C75 `C75_dht_interrupt`: the interrupt of the pin is left disabled if the sensor does not answer and enabled after an answer.
* C75 `C75_dht_due`: between 2^31 and 2^32 ms after a reading every reading is refused.
* C75 `C75_pulse_limit`: the time limit of `pulseIn` is compared with the number of readings, each of 21 clocks.

Serial port (`Verif/Util/Uart`). Not modelled: the interrupt controller, the buffers cleared by begin (C34 starts with them empty), other clocks than 48 MHz.

* C77 `C77_fraction_kept`: `begin(460800)` or `begin(576000)` sets the fractional divider, and nothing resets it: a later `begin(115200)` gives 88757 bit/s.
* C77 `C77_flush_early`: `flush` looks at the write buffer only. A byte written to an idle UART goes directly to the transmit register, so `write(b); end();`
  stops the clock of the UART before the byte is sent.

Analog inputs (`Verif/Pin/Analog`). Not modelled: the conversion itself, the voltage, channels above 7 (the code does not check them).

* C78 `C78_begin_slow`, `C78_begin_fast`: `pclk / 2.4 MHz - 1` wraps below 2.4 MHz (burst mode and all start bits are set) and allows 4.5 to 4.8 MHz undivided.
* C78 `C78_read`: an overrun makes `analogRead` return 0, a valid value.
* C78 `C78_hangs`: without `analogBegin`, or with a channel that has no data register that becomes done, a read never returns.

Update tool (`Verif/Boot/DiffTool`). Not modelled: logging and statistics, the cache of old images, the retries of `sendWithRetry` (only the effect of one repetition).

* C80 is false when the new image is longer than the old one: `BinImage(source, newLength)` pads the old image with zeros, the device's flash behind the old application is erased (0xFF). A new image that continues with at least six zeros makes the tool copy them from there; the device computes another CRC-32 and refuses the page (`C80_longer_image_fails`).
* C80 is false when an answer gets lost: the repeated telegram is decompressed a second time, the page is refused (`C80_repeated_telegram_fails`).
* `doDifferentialFlash` uses the start address of the new image nowhere: the device writes at the start address of the old one.

Full update (`Verif/Boot/FullTool`). Not modelled: read-only requests, logging, delays, protocol version 0, the restart of the device after the update.

* `doFullFlash` leaves its loop as soon as the stream is exhausted (`fis.available() > 0`), also when the last block has to be repeated: one lost data telegram in the last block makes the whole update fail (`C81_loss_in_last_block_fails`), and if the CRC-32 of the image does not distinguish it from the erased flash, the tool reports success (`C81_last_block_not_written`).
* `doFlash` sends a piece again after a lost attempt although the last attempt was answered: every loss, also of a request that never arrived, leaves the piece twice in the device's buffer. In the blocks the byte count uncovers this and the block is repeated; for the descriptor there is no repetition, the update fails (`C81_loss_in_descriptor_fails`).

Hex files (`Verif/Boot/Hex`). Assumed of Java: `readLine` splits at LF, CR and CR LF; `Integer.parseInt` as documented; the second pass reads the same text as the first.

* `MemoryRegions.getFullRangeRegion` takes the end of the region with the greatest *start* as the end of the image. If a later record overwrites bytes inside an earlier one, the bytes behind it are cut off: `C82_overlap_cut`.
* `Parser.processRecord` combines offset and base with `|`. For segment bases (type 2) that is wrong as soon as they share a bit: `C82_segment_or`.
* A data record with no data counts as a region and extends the image to its address: `C82_empty_record_extends`.
* `Integer.parseInt` accepts a sign as the first of the two characters of a byte, so `+1` is read as 0x01 and `-1` as 0xFF; harmless (`C82_one_character` includes it).

Dump (`Verif/Boot/Hex`). `dumpToSerialinIntelHex` appends a start segment record with the start address and the address *behind* the range. For a range that ends with the last byte of a 64 KB flash that address is 0x10000, is printed with five digits, and the whole file is refused: `C83_dump_to_the_end_refused`.

Arbitration (`Verif/Bus/PropsArb`). The position of the overruling bit is computed from the distance to the end of the next own pulse, (match - capture + 33 - 35) / 104, so an edge is attributed to the right bit if it is at most 32 µs late; the receiver's own limit is 33 µs. With exactly 33 µs the character is misread: `C84_33_us_late_misread`.

Exactly once (`Verif/Bus/PropsLink`). The receiver compares with the last delivered telegram only. (a) A telegram equal to the previous one whose first transmission is damaged is acknowledged and dropped when its repetition arrives, and the sender is told success: `C85_success_without_delivery`. (b) If another sender's telegram arrives between a telegram and its repetition, the application gets the telegram twice: `C85_other_sender_duplicate`.

I2C slave (`Verif/I2c/Slave.lean`). Trusted: the controller in slave mode (status codes 0x60-0xC8, AA, ADRn and MASKn as in
the LPC11xx manual); a STOP is accepted in every state. Not modelled: a master transfer of the device at the same time (0x68, 0x78,
0xB0), event handlers that change the transfer.
* C89 `C89_last_byte_refused`: AA is kept only while `rxSz > 1`, and the byte received with NAK is not stored, so a buffer of n bytes takes n - 1.
* C89 `C89_beyond_the_buffer`: SLA+R loads a byte without looking at `txSz`.
* C89 `C89_general_call_unset`: general calls are enabled by bit 0 of an address; without the slave for them `sXfer` is a null pointer.
* C89 `C89_general_call_only`: the header says to use the address 0 for general calls only; that leaves ADRn disabled.

DS2482 bridge (`Verif/Wire/Bridge.lean`). Trusted: the chip as described at the head of the file, and that I2C transfers succeed. The
models of chips (here, and the I2C controller of C70 and C89) follow what is known of the data sheets; the data sheets themselves
are not in the repository and could not be consulted.
* C90 `C90_busy_byte_lost`: after 1000 readings `waitOnBusy` returns and the command is sent to a busy chip, which ignores it.
* C90 `C90_device_reset`: `deviceReset` calls `write`, which writes to the 1-Wire line, instead of `writeByte`.

C95: `GasIndexAlgorithm_set_states` does not clear the estimator's offset. Called on a running algorithm, against the header's advice, the restored mean is shifted by that offset (`C95_running`).

The graphical display (header: "only half done"): begin ends with test code, so that page 0 shows the numbers 0, 1, 2, ... as columns until the user clears the display (`C98_begin_pattern`), and the other pages show what was in the memory. A line end draws nothing and does not move to the next line, so println does not do what its name says (`C98_newline`). Characters are five columns wide and have no gap. `LcdGraphical::clear` is declared and never defined.

SHT1x: getStatusRegister fails with every sensor that puts out its status directly after the acknowledge, whatever the status is (`C99_status_unreadable`). setStatusRegister takes 16 bits and drops the high byte without a word. The check byte of the sensor is skipped, so a disturbed value is handed out (C99_history holds for every check byte). GetDewPoint divides the temperature as an integer and so uses whole degrees.

SHT1x: GetTemperature is undefined for every temperature below -0.01 degrees, since the float is converted to uint16_t (`C100_getTemperature_below_zero`); GetHumidity and getLastHumidity likewise if the formula gives a negative humidity (`C100_getHumidity_below_zero`). readTemperatureF uses the Celsius offset -39.7 and so is 0.24 degrees Fahrenheit below the value of readTemperatureC (`C100_sht1x_fahrenheit`). CCS811: compensate means to round and cuts off instead, because the cast binds tighter than the addition (`C100_ccs811`).

Print::print(float): the numbers between -1 and 0 are printed without their minus sign (`C101_sign_lost`).

SGP4xClass::init(0): the sampling interval 0 is accepted; the time of the gas index algorithm then stands still and both index values are 0 for ever (`C102_interval_zero`).

Transport layer: `finishedSendingTelegram` (knx_tlayer4.cpp:605-625) hands a failed connection control telegram over again with the repeat flag already cleared, so that the first transmission of the new attempt goes out marked as a repetition (`C104_repeat_flag_kept`).

Dew points: `SHT2xClass::GetDewPoint` (SHT2x.cpp:93-104) puts the results of `GetHumidity` and `GetTemperature`, which are hundredths, into a formula for percent and degrees; for every reading of at least 1 degree and 1 to 100 percent the result is not a number or wrong by 50 degrees or more (`C105_sht2x_wrong`). `SHT1x::GetDewPoint` (SHT1x.cpp:311) divides an `int16_t` by 100 as an integer, so the dew point is that for the temperature without its fraction (`C105_sht1x_whole_degrees`; wrong by more than half a degree at 20.95 degrees, `C105_sht1x_half_degree`). `SHT4xClass::getDewPoint` (SHT4x.cpp:113-127) always returns -1 (`C105_sht4x_wrong`). `DHT::CalcdewPointFast` with a humidity of 0 is not a number (`C105_dht_no_humidity`).

What a device tells about itself: a request for a property description by index with an object from 6 on or an index beyond the end mark reads outside the tables (`C106_index_unchecked`, propertiesBCU2.cpp:676-708). On System B a property read of 12 bytes (10 to 12 of a table reference) writes beyond the send buffer of 23 bytes (`C106_systemb_overflow`, propertiesSYSTEMB.cpp:306-337). The description of a table reference names the low byte of the table's address as number of elements (`C106_reference_elements`). Reading property 23 of the association table reads four bytes of a two byte constant (`C106_table_beyond`). The authorization is granted for every key (`C106_authorization_granted`); the ADC service always answers 0 (`C106_adc_zero`).

Bootloader on the bus: messages are executed without a connection, from any sender, also while another client is connected and after another client unlocked the device (`C107_without_connection`). The request for individual addresses is answered without the programming mode being on (bcu_updater.cpp:96-103, `C107_always_answers`). For a telegram of fewer than 9 bytes the length computed in bcu_updater.cpp:63 wraps around and a byte behind the telegram is read; it only selects one of two error answers (`C107_too_short`, `C107_short_reads_beyond`). The answer to a memory write without a connection is written with 0x42 as transport byte, which a connected client takes for numbered data (`C107_other_services`); C109 and C108_answers therefore ask that no such telegram reaches the bootloader during the session.

C111: `CCS811Class::begin` and `readStatus` do not look whether the transfer succeeded; with a sensor that stops answering after its identification the result of `begin` is given by uninitialised bytes (C111_begin_stack). `readErrorID` and most other functions assert WAKE without the pause of 20 µs that `readStatus` and `getData` keep (C111_no_pause).

C112: on System B an allocation writes address and size to the places of `UserEepromSYSTEMB` (0x21, 0x23, 0x4D ...), but `PD_USER_EEPROM_OFFSET` (propertiesBCU2.h:39) makes the properties "table reference" and "memory control block" those of `UserEepromBCU2` (0x378, 0x37A, 0x3A4 ...), which `loadProperty` (propertiesSYSTEMB.cpp:227-253) uses. So "load completed" after an allocation stores the CRC of another area, 0x1D0F if the block says 0 bytes (`C112_crc_of_nothing`), and "unload" does not free the address table and the association table, which therefore move down with every download (`C112_unload_leaks`, `C112_moves_down`).

C113: `iapFlashSize` searches in steps of 8 KB: a flash with an odd number of 4 KB sectors is taken for 4 KB larger and the EEPROM sector does not exist (`C113_odd_sectors`). A blank check that fails with INVALID_SECTOR by mistake makes the flash smaller until the restart (`C113_false_end`).

Graphics library (`Verif/U8g`). Modelled: the picture loop (u8g_ll_api.c, u8g_page.c, u8g_pb.c), the page buffer u8g_pb8v1.c with one bit per point and eight rows, clipping, rotation, lines, rectangles, circles, bitmaps and texts, and the PCD8544 driver. Not modelled: ellipses, polygons, scaling, the cursor, the virtual screen, the other page buffers and the other display drivers.

C116: the colour chosen by the last call of a drawing procedure is in force at the beginning of the next page, so that a procedure that draws before it chooses a colour shows something else in the first eight rows than below (C116_colour_left_over). With a height of 249 rows or more the row counter wraps and the picture loop never ends (C116_too_high). A bitmap of more than 32 bytes per row has its width taken modulo 256 by the clipping test.

C117: a line whose longer side reaches the coordinate 255 is never finished, since the loop counter has eight bits (C117_endless); lines longer than 128 points are bent because the error term has eight bits with sign (C117_too_long).

C118: the decision value of the circle has eight bits with sign. For every radius above 76, except 82 and 83, it overflows and the circle gets points that are not on it (C118_too_large).

C119: a rounded box whose height is twice the radius and 2 fills, in every group of eight rows it meets, all rows over its whole width: the middle piece has no rows left, and the loop that draws it counts down from 0 through 255 (C119_band).

C120: the procedures that draw a text from program memory downwards, upside down or upwards apply the reference height twice, once for the text and once for each letter, so such a text is displaced unless the reference is the baseline (C120_program_memory).

C121: the number of bytes of a row is computed with eight bits; for 249 to 255 columns it is 0 and every row repeats the first (C121_wide).

C122: an unsigned number of 2^31 or more (%u, %x, %X, %o, and %p for the system registers of the processor) makes the logger read before its table of digits, because the number is passed as a signed long (C122_large_undefined, C122_pointer); the smallest signed number is negated, which overflows (C122_smallest_undefined); a precision does not shorten a text (C122_text_not_shortened); four more deviations from the C standard are listed in C122_deviations.

With `setTimeout(0)` the timed functions of a stream (`readBytes`, `find`, `parseInt`) receive nothing, even if bytes are available: the loops test the time before the first look at the stream (stream.cpp:93 and 106), `C125_zero`.

C126: the version told is taken from the descriptor without a check that the application is complete, and a version text in the last 14 bytes of the flash is not told although it would fit (C126_version). The request for the boot descriptor tries to overwrite an implausible descriptor with plain stores to the flash (update.cpp:649-655).

C127: in the 12-hour format the hour after midnight is converted to the hour after noon (C127_after_midnight); after a failed transfer `mktime` is called with uninitialised members (C127_failed_transfer), and `tm_isdst` is never set (ds3231.cpp:490-508).

1-Wire (`Verif/Wire`). Modelled: `OneWireSearch`, `OneWireResetSearch`, `OneWireTargetSearch`, the search of the DS2482 bridge and the `DS18x20` driver, over
a bus that is a fixed set of ROM codes with the wired-AND of their bits. The bits on the wire and their timing are in `Verif/Wire/Bits.lean` (C76). Not modelled: transmission errors,
short circuits during a search.

* C46 `C46_family_zero`: a device with family code 0 is reported as found without an address, and the search begins anew.
* C50 `C50_missed`: the bridge uses bit number 0 both for "parting at bit 0" and "no parting". If the devices differ in the lowest bit
  of the family code, those with 0 are never found. `C50_found_exactly` says which devices are.
* C60 `C60_gap`: `DS18x20::Search` stores the sensors by the number of all devices found, but counts only supported ones. After a
  foreign device the last sensors are unreachable and an unfilled entry is valid. `C60_code_of_last`: the return code is that of the
  last device. `C60_search_exact`: with a maximum above 10 the list of 10 entries is overrun.
* C76 `C76_write_late`, `C76_read_late`: `pinDisableInterrupt` disables the interrupt of the pin, not those of the processor. An interrupt of 2 µs
  between the falling edge and the look at the line makes a zero a one; one of 50 µs makes a one written a zero.
* C76 `C76_reset_stuck`: a reset with the line held low leaves the interrupt of the pin disabled. With C72 alone the reset pulse is only known to
  last 478 µs (data sheet: 480).
* C61 `C61_wrap_early`, `C61_wrap_blocked`: `millis() < readyAt` is wrong when the counter wraps. `C61_absent_accepted`: the CRC of the
  scratchpad is not checked; a missing sensor is read as -1/16 degree. (read) negative indices are not refused, and `last_temperature`
  is not initialised.
