{
 "claims": [
  {
   "property": "C01",
   "status": "proved",
   "theorems": [
    "Verif.TL4.C01_intruder_step",
    "Verif.TL4.C01_intruder_history"
   ],
   "note": "One-step and history form; any telegram of any sender other than the partner."
  },
  {
   "property": "C02",
   "status": "proved",
   "theorems": [
    "Verif.TL4.C02_in_order",
    "Verif.TL4.C02_reaction"
   ],
   "note": "History invariant over every operation list from any reachable closed state."
  },
  {
   "property": "C03",
   "status": "proved",
   "theorems": [
    "Verif.Dev.C03_device",
    "Verif.TL4.C03_exactly_once"
   ],
   "note": "Joint system client / lossy duplicating bus / device, for any application that emits no forged T_ACK frame (AppOk), and without that hypothesis for the management services of all device types (C03_device), whatever else changes the memory of the device between requests. Assumes that other senders do not use the address of the client."
  },
  {
   "property": "C04",
   "status": "partial",
   "theorems": [
    "Verif.TL4.C04_used_up",
    "Verif.TL4.C04_advance_iff_ack_partial",
    "Verif.TL4.C04_at_most_four",
    "Verif.TL4.C04_frame_fields",
    "Verif.TL4.C04_advance_exact",
    "Verif.TL4.C04_give_up",
    "Verif.TL4.C04_undefined_ack",
    "Verif.TL4.C04_nak15_ignored"
   ],
   "note": "At most four transmissions, equal content; the exact condition for advancing the number is C04_advance_exact; give-up with T_DISCONNECT after the fourth transmission for any history (C04_used_up). Partial because undefined control codes count as T_ACK/T_NAK (C04_undefined_ack), so the number advances exactly on the matching T_ACK only if the control bytes that arrive are defined ones; also T_NAK with number 15 is ignored (C04_nak15_ignored)."
  },
  {
   "property": "C05",
   "status": "proved",
   "theorems": [
    "Verif.TL4.C05_timeout"
   ],
   "note": "Both directions, 32-bit wrap included."
  },
  {
   "property": "C06",
   "status": "proved",
   "theorems": [
    "Verif.TL4.C06_closed_ignores",
    "Verif.TL4.C06_only_connect_opens",
    "Verif.TL4.C06_closed_no_data"
   ],
   "note": ""
  },
  {
   "property": "C07",
   "status": "proved",
   "theorems": [
    "Verif.TL4.C07_other_devices"
   ],
   "note": ""
  },
  {
   "property": "C08",
   "status": "proved",
   "theorems": [
    "Verif.TL4.C08_invariants"
   ],
   "note": ""
  },
  {
   "property": "C09",
   "status": "proved",
   "theorems": [
    "Verif.Bus.C09_round_trip",
    "Verif.Bus.C09_single_byte_detected",
    "Verif.Bus.C09_corrupt_rejected"
   ],
   "note": "Every sent frame carries the odd-parity check octet; a frame with one wrong byte fails the check; a frame failing it is neither stored nor acknowledged positively."
  },
  {
   "property": "C10",
   "status": "proved",
   "theorems": [
    "Verif.Bus.C10_receive",
    "Verif.Bus.C10_flip_detected",
    "Verif.Bus.C10_send",
    "Verif.Bus.C10_send_frame",
    "Verif.Bus.C10_round_trip",
    "Verif.Bus.C10_link_delivery"
   ],
   "note": "Every byte and both parity bits, any capture times within the decoder tolerance, any timer state; every single flipped bit is detected; sender output and receiver input composed (C10_round_trip, C10_link_delivery)."
  },
  {
   "property": "C11",
   "status": "proved",
   "theorems": [
    "Verif.Bus.C11_not_overwritten",
    "Verif.Bus.C11_not_acknowledged"
   ],
   "note": "Any history; a frame received while a telegram waits is not acknowledged."
  },
  {
   "property": "C12",
   "status": "proved",
   "theorems": [
    "Verif.Bus.C12_no_duplicate",
    "Verif.Bus.C12_acknowledged",
    "Verif.Bus.C12_others_delivered",
    "Verif.Bus.C12_new_message_lost"
   ],
   "note": "Repetitions are acknowledged and not delivered; every frame that differs from the last delivered one in any content byte is delivered. C12_new_message_lost: a flagged repetition of a lost message with the content of the previous message is dropped."
  },
  {
   "property": "C13",
   "status": "partial",
   "theorems": [
    "Verif.Bus.C13_filter_partial",
    "Verif.Bus.C13_overlong_accepted",
    "Verif.Bus.C13_accepts"
   ],
   "note": "Frames of at most 23 characters: exact filter. C13_overlong_accepted: longer frames are accepted cut off."
  },
  {
   "property": "C14",
   "status": "proved",
   "theorems": [
    "Verif.Bus.C14_timer_enabled",
    "Verif.Bus.C14_never_stuck",
    "Verif.Bus.C14_listens",
    "Verif.Bus.C14_one_completion",
    "Verif.Bus.C14_success_acknowledged",
    "Verif.Bus.C14_ack_completes",
    "Verif.Bus.C14_bounded",
    "Verif.Bus.C14_frames",
    "Verif.Bus.C14_repetition",
    "Verif.Bus.C14_no_early_failure",
    "Verif.Bus.C14_quiet",
    "Verif.Bus.C14_completes"
   ],
   "note": "All histories and interrupt schedules: one completion per accepted telegram, success iff an ACK character followed, at most max 1 (R+B) transmissions, 4 collisions, failure not before a limit is reached, frames identical except for the repeat flag, nothing sent when nothing is queued, completion guaranteed on a silent bus; the state machine always has an armed interrupt source to continue (C14_timer_enabled, C14_never_stuck, C14_listens)."
  },
  {
   "property": "C15",
   "status": "proved",
   "theorems": [
    "Verif.Com.C15_set_flags",
    "Verif.Com.C15_add_flags",
    "Verif.Com.C15_requests",
    "Verif.Com.C15_wide_flags_leak"
   ],
   "note": "All flag combinations (values below 16). C15_wide_flags_leak: wider values would reach the neighbour; no caller passes them."
  },
  {
   "property": "C16",
   "status": "proved",
   "theorems": [
    "Verif.Com.C16_write_read",
    "Verif.Com.C16_update_read",
    "Verif.Com.C16_setValue_read",
    "Verif.Com.C16_write_bytes"
   ],
   "note": "objectWrite (value and bytes), objectUpdate, objectSetValue; BCU1, BCU2, masks 0701/0705, both pointer byte orders."
  },
  {
   "property": "C17",
   "status": "proved",
   "theorems": [
    "Verif.Com.C17_reports_lowest",
    "Verif.Com.C17_enumerates"
   ],
   "note": ""
  },
  {
   "property": "C18",
   "status": "proved",
   "theorems": [
    "Verif.Com.C18_no_starvation",
    "Verif.Com.C18_configuration_kept"
   ],
   "note": "Within n calls for n objects, with an arbitrary environment between the calls."
  },
  {
   "property": "C19",
   "status": "proved",
   "theorems": [
    "Verif.Com.C19_device_to_device",
    "Verif.Com.C19_wide_bits_corrupt"
   ],
   "note": "For types of at most 6 bits the sent value must fit into 6 bits; C19_wide_bits_corrupt shows what happens otherwise."
  },
  {
   "property": "C20",
   "status": "partial",
   "theorems": [
    "Verif.Com.C20_lookup_partial",
    "Verif.Com.C20_reads_past_end",
    "Verif.Com.C20_foreign_address_no_effect",
    "Verif.Com.C20_systemB_exact"
   ],
   "note": "System B: exact. BCU1/BCU2: every configured address is found at its position; C20_reads_past_end shows that the search also reads one entry behind the table, so an address outside the table may be accepted; C20_foreign_address_no_effect: this never affects an object."
  },
  {
   "property": "C21",
   "status": "proved",
   "theorems": [
    "Verif.Rate.C21_interval_kept",
    "Verif.Rate.C21_interval",
    "Verif.Rate.C21_rate",
    "Verif.Rate.C21_sends_when_due"
   ],
   "note": "Telegrams sent by loop(); responses to read requests are not rate limited by the code. Interval 1000/limit ms rounded down."
  },
  {
   "property": "C22",
   "status": "partial",
   "theorems": [
    "Verif.Dev.C22_write_partial",
    "Verif.Dev.C22_stored_partial",
    "Verif.Dev.C22_reported_partial",
    "Verif.Dev.C22_write_response_partial",
    "Verif.Dev.C22_read_partial",
    "Verif.Dev.C22_write_then_read_partial",
    "Verif.Dev.C22_history_partial",
    "Verif.Dev.C22_read_changes_nothing",
    "Verif.Dev.C22_status_alias",
    "Verif.Dev.C22_autoAddPage_hides",
    "Verif.Dev.C22_long_read",
    "Verif.Dev.C22_count_trusted",
    "Verif.Dev.C22_memory_map",
    "Verif.Dev.C22_write_addresses_partial",
    "Verif.Dev.C22_eeprom_scheduled_partial",
    "Verif.Dev.C22_write_answered_partial"
   ],
   "note": "All device types, states, addresses and contents, requests of at most 12 bytes, any split over virtual flash, EEPROM and RAM; exact effect (also of failing requests), report, response, read back, any sequence of writes; the existing addresses as numbers for each device type (C22_memory_map). Missing: a mapper with autoAddPage or with pages over EEPROM/RAM (false: C22_autoAddPage_hides), counts 13..15 (false: C22_long_read), the one-byte request at 0x60 of the 07xx masks and System B (false: C22_status_alias), and the load record addresses (see C24)."
  },
  {
   "property": "C23",
   "status": "partial",
   "theorems": [
    "Verif.Dev.C23_ignored",
    "Verif.Dev.C23_ignored_on_bus",
    "Verif.Dev.C23_write_partial",
    "Verif.Dev.C23_write_on_bus_partial",
    "Verif.Dev.C23_read_on_bus",
    "Verif.Dev.C23_only_way",
    "Verif.Dev.C23_history",
    "Verif.Dev.C23_serial_write_partial",
    "Verif.Dev.C23_serial_read",
    "Verif.Dev.C23_write_loading_partial",
    "Verif.Dev.C23_write_loading_ram_partial",
    "Verif.Dev.C23_loading_without_table",
    "Verif.Dev.C23_loading_no_room"
   ],
   "note": "All device types, states and telegrams: nothing happens outside programming mode, the address is set exactly, read answered only in programming mode, no other service changes the individual address, along every history of the system of transport layer and device. The two services with the serial number act by design without programming mode (C23_serial_write_partial, C23_serial_read). That only the address changes is false while the address table object is in state loading: the address is also written into the table, wherever that is. The exact effect is C23_write_loading_partial (table in the EEPROM), C23_write_loading_ram_partial (in the RAM), C23_loading_no_room and C23_loading_without_table (undefined: table at the end of the memory or outside)."
  },
  {
   "property": "C24",
   "status": "partial",
   "theorems": [
    "Verif.Dev.C24_new_state",
    "Verif.Dev.C24_prescribed_unique",
    "Verif.Dev.C24_others_partial",
    "Verif.Dev.C24_answer",
    "Verif.Dev.C24_read_property",
    "Verif.Dev.C24_read_memory",
    "Verif.Dev.C24_history_partial",
    "Verif.Dev.C24_frame_partial",
    "Verif.Dev.C24_defined_partial",
    "Verif.Dev.C24_event_masked",
    "Verif.Dev.C24_property_not_saved",
    "Verif.Dev.C24_systemb_null",
    "Verif.Dev.C24_fill_overwrites"
   ],
   "note": "All device types with load states, all device states, both ways (property 5 and memory address 0x104), all records: new state, answer, reading back by property and by memory, last record wins along any sequence. Missing: other objects on System B when a relative allocation asks to fill memory (false: C24_fill_overwrites); the event is taken modulo 8 (C24_event_masked)."
  },
  {
   "property": "C25",
   "status": "proved",
   "theorems": [
    "Verif.Dev.C25_running_iff",
    "Verif.Dev.C25_running_bcu1",
    "Verif.Dev.C25_run_state_kept",
    "Verif.Dev.C25_step",
    "Verif.Dev.C25_history",
    "Verif.Dev.C25_starts",
    "Verif.Dev.C25_stops"
   ],
   "note": "All device types and states. BCU 2, 07xx and System B: running exactly if the library is enabled, the run state is running and the load state of objects 1..3, as the property service reports it, is loaded; BCU 1: exactly if run state, run-time error flags and status byte say so. No service changes the run state; along any history of the system of transport layer and device, an object becomes loaded only by a telegram to this device of one of three kinds or by an address table laid over the load states; load completed of the last object starts the application, any other load event stops it. Hypothesis of the history theorems: the application itself does not write the load states."
  },
  {
   "property": "C26",
   "status": "partial",
   "theorems": [
    "Verif.Dev.C26_refused",
    "Verif.Dev.C26_read_changes_nothing",
    "Verif.Dev.C26_read_unknown",
    "Verif.Dev.C26_write_partial",
    "Verif.Dev.C26_round_trip_partial",
    "Verif.Dev.C26_generic_reversed_partial",
    "Verif.Dev.C26_serial_overwritten",
    "Verif.Dev.C26_table_constant",
    "Verif.Dev.C26_start_high"
   ],
   "note": "All device types with properties, all states, all telegrams. Writes to unknown and read-only properties change nothing and are reported as failed; reads of unknown properties likewise; exact effect of a write, response and read back for any number of elements inside the memory. Missing: writable properties of several bytes that are not numbers read back reversed (C26_generic_reversed_partial), the table property 23 (C26_table_constant), elements from 256 on (C26_start_high); the element numbers are not checked against the property, so a read-only property can be changed through another one (C26_serial_overwritten)."
  },
  {
   "property": "C27",
   "status": "proved",
   "theorems": [
    "Verif.Dpt9.C27_decode",
    "Verif.Dpt9.C27_accuracy",
    "Verif.Dpt9.C27_exact",
    "Verif.Dpt9.C27_recode",
    "Verif.Dpt9.C27_invalid_unambiguous",
    "Verif.Dpt9.C27_monotone",
    "Verif.Dpt9.C27_out_of_range",
    "Verif.Dpt9.C27_invalid_not_encodable"
   ],
   "note": "Integer argument and result as in the code. C27_invalid_not_encodable: the invalid code cannot be produced from its own numeric meaning."
  },
  {
   "property": "C28",
   "status": "proved",
   "theorems": [
    "Verif.Eeprom.C28_last_saved",
    "Verif.Eeprom.C28_blank_is_zero",
    "Verif.Eeprom.C28_saves_complete",
    "Verif.Eeprom.C28_restores"
   ],
   "note": "Every history of changes, saves and restarts in which no save fails or is interrupted (C28_last_saved, any initial flash); on fault-free flash with an erased sector no save fails (C28_saves_complete). All device classes. The last byte is always saved as 0 (page mark), also in the RAM copy."
  },
  {
   "property": "C29",
   "status": "partial",
   "theorems": [
    "Verif.Eeprom.C29_old_or_new_partial",
    "Verif.Eeprom.C29_needs_mark_last",
    "Verif.Eeprom.C29_next_save_corrupts",
    "Verif.Eeprom.C29_erase_loses_image"
   ],
   "note": "C29_old_or_new_partial: old or new image for a save interrupted at any ROM call, with two restrictions. (1) No earlier save of the history was interrupted and the sector was erased at first power-up; otherwise false: C29_next_save_corrupts. (2) An interrupted programming never changes the last byte of the page before the rest is complete (MarkLast, implied by ascending order); otherwise false: C29_needs_mark_last. C29_erase_loses_image: the case the property excludes."
  },
  {
   "property": "C30",
   "status": "partial",
   "theorems": [
    "Verif.MemMap.C30_read_your_writes_partial",
    "Verif.MemMap.C30_reads_last_write_partial",
    "Verif.MemMap.C30_corrupt_table",
    "Verif.MemMap.C30_power_failure_partial",
    "Verif.MemMap.C30_unmapped_write_destroys_page_0",
    "Verif.MemMap.C30_addRange_drops_pending",
    "Verif.MemMap.C30_full_range_is_ignored",
    "Verif.MemMap.C30_range_past_end",
    "Verif.MemMap.C30_out_of_memory_range_lost",
    "Verif.MemMap.C30_failure_in_flush_loses_all"
   ],
   "note": "Refinement to an ideal memory for every disciplined history (Spec.lean: Disciplined) on working flash, including restarts and power failures between operations. Missing: other histories, for which it is false (C30_unmapped_write_destroys_page_0, C30_addRange_drops_pending, C30_full_range_is_ignored, C30_range_past_end, C30_out_of_memory_range_lost), and power failures during a flash operation (C30_failure_in_flush_loses_all)."
  },
  {
   "property": "C31",
   "status": "partial",
   "theorems": [
    "Verif.MemMap.C31_distinct_pages_partial",
    "Verif.MemMap.C31_stays_in_area_partial",
    "Verif.MemMap.C31_interrupted_table_write",
    "Verif.MemMap.C31_one_page_area"
   ],
   "note": "All histories, including power failures between operations, on working flash with an area of at least two pages and ranges inside the address space. Missing: interrupted programming of the table, one-page areas; both false (C31_interrupted_table_write, C31_one_page_area)."
  },
  {
   "property": "C32",
   "status": "proved",
   "theorems": [
    "Verif.Time.C32_expires_once",
    "Verif.Time.C32_duration",
    "Verif.Time.C32_started",
    "Verif.Time.C32_stopped_never_expires",
    "Verif.Time.C32_long_timeout_expires_at_once",
    "Verif.Time.C32_missed_after_half_range"
   ],
   "note": "Durations below 2^31 ms. Findings: longer durations expire at once; a query more than 2^31 ms late misses the expiry."
  },
  {
   "property": "C33",
   "status": "partial",
   "theorems": [
    "Verif.Time.C33_only_stable_values",
    "Verif.Time.C33_constant_input_reported_partial",
    "Verif.Time.C33_change_at_zero_lost",
    "Verif.Time.C33_init_blocks_value"
   ],
   "note": "Only stable values are reported: proved. A constant input is reported: only if the change was not sampled while the millisecond counter is 0 (finding C33_change_at_zero_lost) and the value differs from the last sample (C33_init_blocks_value: init() does not reset the candidate value)."
  },
  {
   "property": "C34",
   "status": "partial",
   "theorems": [
    "Verif.Serial.C34_transmit_fifo",
    "Verif.Serial.C34_transmit_completes",
    "Verif.Serial.C34_receive_fifo_partial",
    "Verif.Serial.C34_drops_only_when_full",
    "Verif.Serial.C34_available_peek",
    "Verif.Serial.C34_receive_race"
   ],
   "note": "Transmit: proved for every interleaving, with completion. Receive: proved for every interleaving without an interrupt inside the two-instruction index update that finds more bytes than fit; C34_receive_race shows the loss in that case."
  },
  {
   "property": "C35",
   "status": "proved",
   "theorems": [
    "Verif.Text.C35_print_unsigned",
    "Verif.Text.C35_print_signed",
    "Verif.Text.C35_too_many_digits_overflow",
    "Verif.Text.C35_parse",
    "Verif.Text.C35_parse_nothing",
    "Verif.Text.C35_print_parse"
   ],
   "note": "All bases 2..36, all widths up to the buffer size (33). INT_MIN excluded (undefined in C++). C35_too_many_digits_overflow: more than 33 digits overrun the stack buffer."
  },
  {
   "property": "C36",
   "status": "proved",
   "theorems": [
    "Verif.Bytes.C36_reverseCopy",
    "Verif.Bytes.C36_reverseCopy_twice",
    "Verif.Bytes.C36_reverseCopy_nothing",
    "Verif.Bytes.C36_word_helpers"
   ],
   "note": ""
  },
  {
   "property": "C37",
   "status": "proved",
   "theorems": [
    "Verif.Bytes.C37_hash_is_function_of_uid",
    "Verif.Bytes.C37_six_bytes_suffice",
    "Verif.Bytes.C37_halves_distinguished",
    "Verif.Bytes.C37_bad_lengths_refused",
    "Verif.Bytes.C37_short_id_not_deterministic"
   ],
   "note": "16-byte ids. C37_short_id_not_deterministic: for shorter ids uninitialised memory enters the hash."
  },
  {
   "property": "C38",
   "status": "proved",
   "theorems": [
    "Verif.Boot.C38_locked_device_is_inert",
    "Verif.Boot.C38_right_id_unlocks",
    "Verif.Boot.C38_id_is_disclosed"
   ],
   "note": "Any telegram sequence without the unlock message leaves flash, RAM buffer and decompressor untouched. C38_id_is_disclosed: the id is itself readable while locked."
  },
  {
   "property": "C39",
   "status": "proved",
   "theorems": [
    "Verif.Boot.C39_bootloader_never_overwritten"
   ],
   "note": "All telegram sequences, any flash failures."
  },
  {
   "property": "C40",
   "status": "proved",
   "theorems": [
    "Verif.Boot.C40_program_success",
    "Verif.Boot.C40_program_changes_flash_only_after_checks",
    "Verif.Boot.C40_download_works"
   ],
   "note": "Success implies flash equals the announced, CRC-checked data; otherwise flash outside the target range unchanged and nothing changed before the checks passed; a full download succeeds on working flash."
  },
  {
   "property": "C41",
   "status": "proved",
   "theorems": [
    "Verif.Boot.C41_buffer_never_overflows",
    "Verif.Boot.C41_data_appended_iff_it_fits"
   ],
   "note": "History relation between host view and the device buffer."
  },
  {
   "property": "C42",
   "status": "proved",
   "theorems": [
    "Verif.Boot.C42_erase_success_exact",
    "Verif.Boot.C42_erase_confined",
    "Verif.Boot.C42_erase_succeeds_iff_valid",
    "Verif.Boot.C42_erase_all",
    "Verif.Boot.C42_inverted_range_erases"
   ],
   "note": "For end >= start. C42_inverted_range_erases: an inverted range erases pages on both sides and answers success."
  },
  {
   "property": "C43",
   "status": "proved",
   "theorems": [
    "Verif.Crc.C43_crc32_is_standard",
    "Verif.Crc.C43_crc32_detects_bursts",
    "Verif.Crc.C43_crc32_detects_bit_bursts",
    "Verif.Crc.C43_crc32_pieces"
   ],
   "note": "crc32 equals the bit-serial CRC-32 for all inputs; all bursts up to 32 bits detected; piecewise computation."
  },
  {
   "property": "C44",
   "status": "proved",
   "theorems": [
    "Verif.Boot.C44_stream_reproduces_page",
    "Verif.Boot.C44_page_flashed",
    "Verif.Boot.C44_page_flash_succeeds"
   ],
   "note": "Any chunking into telegrams; page flashing included."
  },
  {
   "property": "C45",
   "status": "proved",
   "theorems": [
    "Verif.Boot.C45_started_iff_complete",
    "Verif.Boot.C45_start_address",
    "Verif.Boot.C45_corrupted_application_not_started",
    "Verif.Boot.C45_installed_application_starts",
    "Verif.Boot.C45_short_descriptor_acknowledged",
    "Verif.Boot.C45_unlucky_image_size"
   ],
   "note": "Exact characterisation of start-up, corruption bursts, installation. Findings: short descriptor requests are acknowledged; image size 1 mod 256 makes installation impossible."
  },
  {
   "property": "C46",
   "status": "partial",
   "theorems": [
    "Verif.Wire.C46_every_device_once_partial",
    "Verif.Wire.C46_no_device",
    "Verif.Wire.C46_target",
    "Verif.Wire.C46_family_zero"
   ],
   "note": "Every non-empty finite set of ROM codes with non-zero family codes; also the search for a family (C46_target) and the empty bus. Missing: family code 0, for which the property is false (C46_family_zero). The bus is modelled as the wired-AND of the bits of the selected devices, without transmission errors."
  },
  {
   "property": "C47",
   "status": "proved",
   "theorems": [
    "Verif.Crc.C47_onewire_crc8_standard",
    "Verif.Crc.C47_crc8_table_agrees",
    "Verif.Crc.C47_onewire_crc8_detects",
    "Verif.Crc.C47_onewire_rom_single_byte_error_rejected",
    "Verif.Crc.C47_onewire_crc16_standard",
    "Verif.Crc.C47_onewire_check_crc16_iff",
    "Verif.Crc.C47_onewire_crc16_detects",
    "Verif.Crc.C47_sensirion_crc8_standard",
    "Verif.Crc.C47_sensirion_word_single_byte_error_rejected",
    "Verif.Crc.C47_systemb_crc16_standard",
    "Verif.Crc.C47_systemb_crc16_detects"
   ],
   "note": "All CRC routines (1-Wire CRC-8 bitwise and table, CRC-16, Sensirion CRC-8, System-B CRC-16) equal the bit-serial definition; burst detection."
  },
  {
   "property": "C48",
   "status": "partial",
   "theorems": [
    "Verif.Rtc.C48_time_round_trip",
    "Verif.Rtc.C48_time_registers",
    "Verif.Rtc.C48_invalid_time_refused",
    "Verif.Rtc.C48_time_failures",
    "Verif.Rtc.C48_am_pm_wrong_in_24h",
    "Verif.Rtc.C48_hour_zero_accepted",
    "Verif.Rtc.C48_midnight_is_noon",
    "Verif.Rtc.C48_calendar_round_trip",
    "Verif.Rtc.C48_invalid_calendar_refused",
    "Verif.Rtc.C48_alarm_round_trip_partial",
    "Verif.Rtc.C48_invalid_alarm_refused",
    "Verif.Rtc.C48_alarm_frame",
    "Verif.Rtc.C48_alarm_selection_sticks",
    "Verif.Rtc.C48_alarm_flags",
    "Verif.Rtc.C48_turn_on_does_not_enable",
    "Verif.Rtc.C48_enable_oscillator_clears_status",
    "Verif.Rtc.C48_oscillator",
    "Verif.Rtc.C48_negative_temperature_wrong",
    "Verif.Rtc.C48_temperature"
   ],
   "note": "Time and calendar complete; alarm except for the day/date selection flag, which GetAlarm never clears (C48_alarm_selection_sticks). Further findings: AM/PM flag in 24-hour mode, hour 0 in 12-hour mode, 12 AM in GetEpoch, TurnOnAlarm, EnableOscillator clearing the status register, negative temperatures. C48_oscillator: which control bits EnableOscillator changes."
  },
  {
   "property": "C49",
   "status": "proved",
   "theorems": [
    "Verif.Bytes.C49_shiftOut_bits",
    "Verif.Bytes.C49_round_trip",
    "Verif.Bytes.C49_shiftIn_bits"
   ],
   "note": "Receiver samples at the rising clock edge."
  },
  {
   "property": "C50",
   "status": "partial",
   "theorems": [
    "Verif.Wire.C50_found_exactly",
    "Verif.Wire.C50_every_device_once_partial",
    "Verif.Wire.C50_missed"
   ],
   "note": "Every non-empty finite set of ROM codes: exactly which devices are returned, each once, then the end (C50_found_exactly); all devices if they agree in the lowest bit. Missing: other sets, for which the property is false (C50_missed)."
  },
  {
   "property": "C51",
   "status": "proved",
   "theorems": [
    "Verif.TL4.C51_enabled_when_free",
    "Verif.TL4.C51_buffer_released"
   ],
   "note": ""
  },
  {
   "property": "C52",
   "status": "partial",
   "theorems": [
    "Verif.TL4.C52_third_response_overwrites_second",
    "Verif.TL4.C52_queue_fifo_partial"
   ],
   "note": "FIFO holds while at most one further request is accepted before the first response is acknowledged; C52_third_response_overwrites_second shows the stated property is false of the code."
  },
  {
   "property": "C53",
   "status": "partial",
   "theorems": [
    "Verif.Boot.C53_no_undefined_access_partial",
    "Verif.Boot.C53_decompressor_writes_behind_page",
    "Verif.Boot.C53_decompressor_reads_behind_saved_pages",
    "Verif.Boot.C53_program_copies_ram_behind_buffer"
   ],
   "note": "Holds without the decompressor for all accesses modelled as possibly undefined; false with the decompressor (two witnesses) and for full-buffer programming requests (RAM behind the buffer is copied)."
  },
  {
   "property": "C54",
   "status": "partial",
   "theorems": [
    "Verif.Text.C54_read_until",
    "Verif.Text.C54_read_bytes",
    "Verif.Text.C54_find_sound_partial",
    "Verif.Text.C54_find_misses_occurrence",
    "Verif.Text.C54_find_char"
   ],
   "note": "readBytes/readBytesUntil complete. find: soundness for every target, completeness for single characters; false in general (C54_find_misses_occurrence)."
  },
  {
   "property": "C55",
   "status": "proved",
   "theorems": [
    "Verif.Com.C55_receive_value",
    "Verif.Com.C55_receive_other"
   ],
   "note": ""
  },
  {
   "property": "C56",
   "status": "proved",
   "theorems": [
    "Verif.Com.C56_read_answered",
    "Verif.Com.C56_unanswered",
    "Verif.Com.C56_read_round_trip"
   ],
   "note": ""
  },
  {
   "property": "C57",
   "status": "proved",
   "theorems": [
    "Verif.Com.C57_send_next",
    "Verif.Com.C57_local_sync"
   ],
   "note": ""
  },
  {
   "property": "C58",
   "status": "proved",
   "theorems": [
    "Verif.Eeprom.C58_saves_iff",
    "Verif.Eeprom.C58_delay_ineffective"
   ],
   "note": "Any history of modified() calls. C58_delay_ineffective: the 50 ms write delay has no effect."
  },
  {
   "property": "C59",
   "status": "proved",
   "theorems": [
    "Verif.MemMap.C59_is_mapped",
    "Verif.MemMap.C59_is_mapped_readable",
    "Verif.MemMap.C59_range_two_pages",
    "Verif.MemMap.C59_range_gap",
    "Verif.MemMap.C59_mapped_outside",
    "Verif.MemMap.C59_block_round_trip",
    "Verif.MemMap.C59_uint16_round_trip",
    "Verif.MemMap.C59_uint32_round_trip",
    "Verif.MemMap.C59_layout",
    "Verif.MemMap.C59_order_matters"
   ],
   "note": "All disciplined histories (as in C30), addresses, block lengths, values, both byte orders; stored without error is a hypothesis (return value 0). isMappedRange looks at the ends only: C59_range_gap."
  },
  {
   "property": "C60",
   "status": "partial",
   "theorems": [
    "Verif.Wire.C60_search_exact",
    "Verif.Wire.C60_all_found_partial",
    "Verif.Wire.C60_gap",
    "Verif.Wire.C60_code_of_last"
   ],
   "note": "C60_search_exact describes Search on every bus without family code 0. C60_all_found_partial is the property for a bus with supported sensors only and max at most 10. Otherwise the property is false: C60_gap (a foreign device found first leaves an unfilled valid index and hides a sensor), C60_code_of_last (return code of the last device), store outside the list for more than 10 sensors with max above 10."
  },
  {
   "property": "C61",
   "status": "partial",
   "theorems": [
    "Verif.Wire.C61_reading",
    "Verif.Wire.C61_refused",
    "Verif.Wire.C61_conversion_time_partial",
    "Verif.Wire.C61_all",
    "Verif.Wire.C61_wrap_early",
    "Verif.Wire.C61_wrap_blocked",
    "Verif.Wire.C61_absent_accepted"
   ],
   "note": "Reading, range, independence of other sensors and the loops over all sensors are proved for all contents. The conversion time is proved as long as the millisecond counter does not wrap; C61_wrap_early and C61_wrap_blocked show the failure at the wrap. C61_absent_accepted: the scratchpad CRC is not checked, an absent sensor reads as -1/16 degree."
  },
  {
   "property": "C62",
   "status": "partial",
   "theorems": [
    "Verif.Dev.C62_only_on_request",
    "Verif.Dev.C62_restart_exact",
    "Verif.Dev.C62_saved",
    "Verif.Dev.C62_answer_partial",
    "Verif.Dev.C62_refused_but_restarts"
   ],
   "note": "Only on request, T_DISCONNECT and reset exactly when due, saving before the reset: proved for every history in which the loop that resets runs less than 2^31 ms after the request, and for group telegram handlers that schedule no restart. The answer is right except for erase codes 2 to 7 without the bootloader request, which are answered negatively although the device restarts (C62_refused_but_restarts)."
  },
  {
   "property": "C63",
   "status": "partial",
   "theorems": [
    "Verif.Dev.C63_button_toggles",
    "Verif.Dev.C63_mode_changes_only",
    "Verif.Dev.C63_setProgrammingMode",
    "Verif.Dev.C63_press_is_stable",
    "Verif.Dev.C63_released_between",
    "Verif.Dev.C63_press_noticed_partial"
   ],
   "note": "Everything but the notice of a press is proved for all histories (devices with a programming pin; millis constant during one loop; group telegram handlers leave the status byte alone). A press is noticed unless its first low sample is taken while the millisecond counter is 0 (C33_change_at_zero_lost)."
  },
  {
   "property": "C64",
   "status": "partial",
   "theorems": [
    "Verif.Com.SysB.C64_read",
    "Verif.Com.SysB.C64_write_read_partial",
    "Verif.Com.SysB.C64_update_read_partial",
    "Verif.Com.SysB.C64_setValue_read_partial",
    "Verif.Com.SysB.C64_write_bytes_partial",
    "Verif.Com.SysB.C64_receive_value_partial",
    "Verif.Com.SysB.C64_read_answered_partial",
    "Verif.Com.SysB.C64_receive_other",
    "Verif.Com.SysB.C64_nothing_reported",
    "Verif.Com.SysB.C64_nothing_sent",
    "Verif.Com.SysB.C64_reported_at_most",
    "Verif.Com.SysB.C64_sent_at_most",
    "Verif.Com.SysB.C64_addr_count",
    "Verif.Com.SysB.C64_flags_overwrite",
    "Verif.Com.SysB.C64_long_value_not_sent"
   ],
   "note": "Reading, writing, received values and answers are proved if the two bytes the library takes for the address of the flags (low byte of the object count, configuration of object 1) are no user memory address, answers also only for values up to 14 bytes. False otherwise: C64_flags_overwrite (writing one object changes another), C64_long_value_not_sent. With less than 256 objects nothing is ever reported or sent (C64_nothing_reported, C64_nothing_sent): objectCount reads the high byte of the count. In every configuration at most the numbers 0, 1 and 2 are reported or sent, and nothing is sent with less than 256 associations (C64_reported_at_most, C64_sent_at_most); addrCount has its bytes exchanged (C64_addr_count)."
  },
  {
   "property": "C65",
   "status": "partial",
   "theorems": [
    "Verif.Boot.Blu.C65_installed_partial",
    "Verif.Boot.Blu.C65_overlapping_image",
    "Verif.Boot.Blu.C65_erased_not_started",
    "Verif.Boot.Blu.C65_incomplete_started",
    "Verif.Boot.Blu.C65_failed_erase_ignored",
    "Verif.Boot.Blu.C65_stays_in_bootloader_partial",
    "Verif.Boot.Blu.C65_updater_started_again",
    "Verif.Boot.Blu.C65_checksum_function"
   ],
   "note": "Installed exactly if no flash operation fails and the image lies above the sectors to be replaced (C65_installed_partial); stays in the bootloader if the new descriptor page begins inside the replaced sectors (C65_stays_in_bootloader_partial). False otherwise: C65_overlapping_image, C65_failed_erase_ignored, C65_incomplete_started (power loss after the first sector), C65_updater_started_again."
  },
  {
   "property": "C66",
   "status": "partial",
   "theorems": [
    "Verif.Spi.C66_block_exact",
    "Verif.Spi.C66_async_exact",
    "Verif.Spi.C66_prefix",
    "Verif.Spi.C66_returns_or_overrun_partial",
    "Verif.Spi.C66_short_block_returns_partial",
    "Verif.Spi.C66_overrun_hangs",
    "Verif.Spi.C66_port1_hangs",
    "Verif.Spi.C66_transfer_exact",
    "Verif.Spi.C66_transfer_returns",
    "Verif.Spi.C66_finished",
    "Verif.Spi.C66_settings",
    "Verif.Spi.C66_overrun_possible"
   ],
   "note": "Single words: proved on both ports. Block transfers on port 0 are exact whenever they return, and return for up to 8 words or as long as no received word is lost; a lost word makes the call wait forever (C66_overrun_hangs, C66_overrun_possible). Block transfers on port 1 never work (C66_port1_hangs): the words are written to port 0."
  },
  {
   "property": "C67",
   "status": "proved",
   "theorems": [
    "Verif.Dev.C67_held_back",
    "Verif.Dev.C67_processed",
    "Verif.Dev.C67_group_held_back",
    "Verif.Dev.C67_group_sent",
    "Verif.Dev.C67_never_waits"
   ],
   "note": "For all histories. millis() is constant during one loop; a transmission may end at four places inside the loop; which group telegram is to be sent is an input (C18, C55)."
  },
  {
   "property": "C68",
   "status": "partial",
   "theorems": [
    "Verif.Dev.C68_saved_unless_marked_partial",
    "Verif.Dev.C68_loop_saves_partial",
    "Verif.Dev.C68_reset_saves_partial",
    "Verif.Dev.C68_written_only_when",
    "Verif.Dev.C68_unmarked_never_saved",
    "Verif.Dev.C68_property_load_lost",
    "Verif.Dev.C68_virtual_memory_lost"
   ],
   "note": "Proved for every history without load control by property (C68_saved_unless_marked_partial, C68_loop_saves_partial, C68_reset_saves_partial; handlers of group telegrams mark what they change), and when the flash is written (C68_written_only_when). False otherwise: load control by property does not mark the EEPROM as modified (C68_property_load_lost); virtual memory is written only together with a modified EEPROM (C68_virtual_memory_lost); in general C68_unmarked_never_saved."
  },
  {
   "property": "C69",
   "status": "partial",
   "theorems": [
    "Verif.Dev.C69_starts_as_saved_partial",
    "Verif.Dev.C69_identification_partial",
    "Verif.Dev.C69_running_partial",
    "Verif.Dev.C69_interrupted_download",
    "Verif.Dev.C69_power_failure_partial",
    "Verif.Dev.C69_interrupted_download_history"
   ],
   "note": "Proved for every image that is Clear (if the address table is being loaded, its first entry lies in the memory and not over bytes of the system; this holds for every image whose table is not being loaded): C69_starts_as_saved_partial, C69_identification_partial, C69_running_partial (types with load states), and C69_power_failure_partial over whole lives without load control by property (C68). False for BCU1 after an interrupted download: C69_interrupted_download, C69_interrupted_download_history. Power failures come between events; saving itself is C29."
  },
  {
   "property": "C70",
   "status": "partial",
   "theorems": [
    "Verif.I2c.C70_send_partial",
    "Verif.I2c.C70_read_partial",
    "Verif.I2c.C70_writeRead_partial",
    "Verif.I2c.C70_cmdRead_partial",
    "Verif.I2c.C70_refused_byte_counted",
    "Verif.I2c.C70_empty_transfer",
    "Verif.I2c.C70_lost_arbitration",
    "Verif.I2c.C70_clock"
   ],
   "note": "On a bus with one master, polling mode, at least one byte to send or read: proved for every behaviour of the slaves. False of the code: a refused data byte is counted as transferred (C70_refused_byte_counted); with nothing to transfer a byte is read and stored beyond the buffer (C70_empty_transfer); after a lost arbitration only the rest of the message is sent, or a read is done through a null pointer (C70_lost_arbitration). Interrupt mode is not modelled; the device as slave is C89."
  },
  {
   "property": "C71",
   "status": "partial",
   "theorems": [
    "Verif.I2c.C71_sht4x_partial",
    "Verif.I2c.C71_sht4x_values",
    "Verif.I2c.C71_sht4x_wrap",
    "Verif.I2c.C71_sht4x_init",
    "Verif.I2c.C71_sht2x_single_attempt",
    "Verif.I2c.C71_sht2x_init_partial",
    "Verif.I2c.C71_sht2x_values",
    "Verif.I2c.C71_sht2x_humidity_zero",
    "Verif.I2c.C71_sgp_read_partial",
    "Verif.I2c.C71_sgp_values",
    "Verif.I2c.C71_sgp_params",
    "Verif.I2c.C71_ccs_data_partial",
    "Verif.I2c.C71_ccs_baseline",
    "Verif.I2c.C71_bh_configure_partial",
    "Verif.I2c.C71_bh_mtreg",
    "Verif.I2c.C71_bh_raw_partial",
    "Verif.I2c.C71_bh_ready"
   ],
   "note": "On a bus with one master (C70): what is sent, and that a value is returned exactly for complete answers with right checksums, is proved for all five drivers; for the SHT4x unless millis() wraps within the time limit (C71_sht4x_wrap). False of the code: init of the SHT4x succeeds although the reset is refused (C71_sht4x_init); the SHT2x never repeats a reading (C71_sht2x_single_attempt) and reports failure as humidity 0, a possible value (C71_sht2x_humidity_zero); getBaseline of the CCS811 returns stack contents when nothing answers (C71_ccs_baseline); setMTreg of the BH1750 is true although the value was refused (C71_bh_mtreg). Not modelled: floating point, the gas index algorithm."
  },
  {
   "property": "C72",
   "status": "partial",
   "theorems": [
    "Verif.Timer.C72_micros_at_least",
    "Verif.Timer.C72_micros_at_most",
    "Verif.Timer.C72_micros_48MHz",
    "Verif.Timer.C72_delay_at_least",
    "Verif.Timer.C72_delay_at_most",
    "Verif.Timer.C72_delay_one_short",
    "Verif.Timer.C72_delay_hangs",
    "Verif.Timer.C72_delay_in_interrupt"
   ],
   "note": "delayMicroseconds: both bounds for every schedule of its readings (C72_micros_at_least, C72_micros_at_most). delay: proved with the milliseconds as restarts of SysTick; a restart between the two readings of one round is lost, so the upper bound is exact only if no two restarts fall within three successive readings (C72_delay_at_most). False of the code: with only one of SysTick and its interrupt on, delay waits for ever instead of stopping with the fatal error (C72_delay_hangs, the test uses && where || is meant). delay(1) may return after two clocks (C72_delay_one_short), which the statement allows. The two microseconds reckoned for the call are not modelled."
  },
  {
   "property": "C73",
   "status": "partial",
   "theorems": [
    "Verif.Timer.C73_match",
    "Verif.Timer.C73_capture",
    "Verif.Timer.C73_flags",
    "Verif.Timer.C73_pwm_clock",
    "Verif.Timer.C73_counter",
    "Verif.Timer.C73_clear_partial",
    "Verif.Timer.C73_clear_right_iff"
   ],
   "note": "Match modes, capture modes, flags, PWM, clocks and the counting part of counterMode are proved for all register contents. False of the code: of the four ways to clear the timer only one selects the right input and edge (C73_clear_partial, C73_clear_right_iff). The registers are the model; what the chip does with them is the manual's."
  },
  {
   "property": "C74",
   "status": "partial",
   "theorems": [
    "Verif.Pin.C74_pin_mode",
    "Verif.Pin.C74_connected_partial",
    "Verif.Pin.C74_ssel_not_moved",
    "Verif.Pin.C74_direction",
    "Verif.Pin.C74_write_read",
    "Verif.Pin.C74_interrupt",
    "Verif.Pin.C74_interrupt_enable",
    "Verif.Pin.C74_port_mode_partial",
    "Verif.Pin.C74_port_mode_function",
    "Verif.Pin.C74_port3_overwrites",
    "Verif.Pin.C74_addresses",
    "Verif.Pin.C74_port_direction"
   ],
   "note": "C74_pin_mode is exact for all pins, functions, uses and options; C74_direction, C74_write_read, C74_interrupt, C74_interrupt_enable hold in full. False of the code: SSEL is never routed to PIO2_0 (C74_ssel_not_moved), nor are DSR, DCD, RI, a capture input asked for with PINMODE_FUNC, or RXD as output (excluded by \"selected\" in C74_connected_partial); portMode writes function 0 and no digital bit, wrong for ten pins (C74_port_mode_function), and overwrites the configuration of PIO2_6 if the mask for port 3 has bits of pins that do not exist (C74_port3_overwrites). Functions are not interrupted in the model; the register layout is the one of the test emulation header."
  },
  {
   "property": "C75",
   "status": "partial",
   "theorems": [
    "Verif.Pulse.C75_dht_read",
    "Verif.Pulse.C75_dht_sound",
    "Verif.Pulse.C75_dht_unchanged",
    "Verif.Pulse.C75_dht_partial",
    "Verif.Pulse.C75_dht_truncated",
    "Verif.Pulse.C75_dht_due",
    "Verif.Pulse.C75_dht_first",
    "Verif.Pulse.C75_dht_interrupt",
    "Verif.Pulse.C75_pulse_in",
    "Verif.Pulse.C75_pulse_none",
    "Verif.Pulse.C75_pulse_limit"
   ],
   "note": "C75_pulse_in gives the exact result of pulseIn for every previous pulse, pause and pulse, C75_pulse_none that a level that never comes or never ends gives 0; the time limit counts readings of 21 clocks, so pulses up to 21 times the limit are returned (C75_pulse_limit). C75_dht_read and C75_dht_sound say exactly when readData returns true and which values, C75_dht_unchanged that a refused reading changes no value and sets a reason. Part: the lengths of the pulses are kept modulo 256, so the bits are right only for parts of 1 to 255 readings (C75_dht_partial); with longer ones any message is accepted as 0 % and 0 degrees (C75_dht_truncated). The 2 s are measured in signed arithmetic: after 2^31 ms every reading is refused until 2^32 ms (C75_dht_due). The interrupt of the pin is left disabled if the sensor does not answer and enabled otherwise, whatever it was (C75_dht_interrupt)."
  },
  {
   "property": "C76",
   "status": "partial",
   "theorems": [
    "Verif.Wire.Bits.C76_write_bit",
    "Verif.Wire.Bits.C76_write_partial",
    "Verif.Wire.Bits.C76_select_partial",
    "Verif.Wire.Bits.C76_write_late",
    "Verif.Wire.Bits.C76_power",
    "Verif.Wire.Bits.C76_read_exact",
    "Verif.Wire.Bits.C76_read_partial",
    "Verif.Wire.Bits.C76_read_late",
    "Verif.Wire.Bits.C76_reset",
    "Verif.Wire.Bits.C76_reset_stuck",
    "Verif.Wire.Bits.C76_presence_partial"
   ],
   "note": "C76_write_partial, C76_select_partial: exactly the bits, lowest first, each in a slot that satisfies the data sheet, for all bytes and all delays at most 5 µs late. C76_read_exact: which bits are read for every length of every delay; C76_read_partial: they are the bits sent, and the slots are good, if delays are less than 1 µs late. C76_reset, C76_reset_stuck: exact result of a reset; C76_presence_partial: a device is noticed if the delay of 70 µs is less than 5 µs late. Missing, because false: interrupts of the processor are not disabled, so a one can be seen as a zero (C76_write_late) and a zero read as a one (C76_read_late); the interrupt of the pin is left disabled after a reset with the line low, and enabled otherwise. C76_power: the line after a byte."
  },
  {
   "property": "C77",
   "status": "partial",
   "theorems": [
    "Verif.Uart.C77_format",
    "Verif.Uart.C77_rate_partial",
    "Verif.Uart.C77_fast_rates",
    "Verif.Uart.C77_fraction_kept",
    "Verif.Uart.C77_flush_partial",
    "Verif.Uart.C77_flush_early"
   ],
   "note": "C77_format: all 24 formats. C77_rate_partial: at 48 MHz, with the fractional divider as after a reset, for rates from 46 to 3000000, the rate is not below the one wanted and above by less than 1/divisor, under 2 % up to 60000. C77_fast_rates: 460800 and 576000 within 0.2 %. C77_flush_partial: when flush returns all but at most one of the bytes written have gone to the line, for every schedule. Missing, because false: the fractional divider is never reset, so after 460800 or 576000 other rates are more than 16 % too low (C77_fraction_kept); flush returns while the last byte waits in the UART (C77_flush_early), and end then stops the clock of the UART. Rates above 60000 deviate by more than 2 % for some values."
  },
  {
   "property": "C78",
   "status": "partial",
   "theorems": [
    "Verif.Adc.C78_valid_read",
    "Verif.Adc.C78_read",
    "Verif.Adc.C78_hangs",
    "Verif.Adc.C78_reads",
    "Verif.Adc.C78_begin_partial",
    "Verif.Adc.C78_begin_slow",
    "Verif.Adc.C78_begin_fast",
    "Verif.Adc.C78_end"
   ],
   "note": "C78_valid_read, C78_read: exact accesses and result for channels 0 to 7 of a read that ends; C78_reads: any sequence of reads; C78_end. C78_begin_partial: the clock is 2.4 to 3.6 MHz for bus clocks of 4.8 to 614 MHz. Missing, because false: between 4.5 and 4.8 MHz the clock is too fast (C78_begin_fast), below 2.4 MHz all fields are ones (C78_begin_slow); analogRead returns 0 for a lost result, as for 0 V (C78_read); a read of a converter that is off never returns (C78_hangs)."
  },
  {
   "property": "C79",
   "status": "proved",
   "theorems": [
    "Verif.Arrays.C79_found",
    "Verif.Arrays.C79_not_found",
    "Verif.Arrays.C79_reads"
   ],
   "note": "For every element type with decidable equality. C79_found and C79_not_found give the result for every array and count; C79_reads the elements read."
  },
  {
   "property": "C80",
   "status": "partial",
   "theorems": [
    "Verif.Boot.C80_differential_update_partial",
    "Verif.Boot.C80_longer_image_fails",
    "Verif.Boot.C80_repeated_telegram_fails"
   ],
   "note": "Proved for all images, histories and layouts when the flash behind the old image is zero as far as the new image is longer, no telegram is repeated and the flash hardware works. False without the first two: C80_longer_image_fails (the tool assumes zeros behind the old image, erased flash is 0xFF, the page is refused) and C80_repeated_telegram_fails (a telegram repeated after a lost answer is taken twice). The tool's start address of the new image is not part of the differential mode and not modelled."
  },
  {
   "property": "C81",
   "status": "partial",
   "theorems": [
    "Verif.Boot.C81_finished_update_partial",
    "Verif.Boot.C81_lossless_update_succeeds",
    "Verif.Boot.C81_loss_in_last_block_fails",
    "Verif.Boot.C81_loss_in_descriptor_fails",
    "Verif.Boot.C81_last_block_not_written"
   ],
   "note": "C81_finished_update_partial: for all losses and faults a finished update starts at the image's address, the range has the image's CRC-32 and all blocks but the last are exactly the image's. That the last block is exactly the image's is false: C81_last_block_not_written. C81_lossless_update_succeeds: without losses and faults the update succeeds from every reachable state. That single losses are made up for is false in the last block and in the descriptor: C81_loss_in_last_block_fails, C81_loss_in_descriptor_fails. Protocol version 1; read-only requests of the tool are not modelled."
  },
  {
   "property": "C82",
   "status": "partial",
   "theorems": [
    "Verif.Boot.Hex.C82_image",
    "Verif.Boot.Hex.C82_hex_file_partial",
    "Verif.Boot.Hex.C82_only_complete_files",
    "Verif.Boot.Hex.C82_one_character",
    "Verif.Boot.Hex.C82_overlap_cut",
    "Verif.Boot.Hex.C82_segment_or",
    "Verif.Boot.Hex.C82_empty_record_extends",
    "Verif.Boot.Hex.C82_file_to_device_partial"
   ],
   "note": "C82_hex_file_partial: for all files that give no byte twice, have no empty data record, no wrapping address and no segment base sharing bits with an offset. C82_image: without the first condition, start and bytes are right but the end need not be (C82_overlap_cut). The excluded cases are wrong in the code: C82_overlap_cut, C82_segment_or, C82_empty_record_extends. C82_only_complete_files and C82_one_character hold for all files. C82_file_to_device_partial composes with C81 for the loss-free update. Java's character decoding and Character.digit beyond ASCII are parameters."
  },
  {
   "property": "C83",
   "status": "partial",
   "theorems": [
    "Verif.Boot.Hex.C83_dump_read_back_partial",
    "Verif.Boot.Hex.C83_dump_to_the_end_refused"
   ],
   "note": "C83_dump_read_back_partial: for all ranges that end before the last byte of 64 KB. A dump up to the end of a 64 KB flash is refused, always: C83_dump_to_the_end_refused. Debug builds of the bootloader only."
  },
  {
   "property": "C84",
   "status": "partial",
   "theorems": [
    "Verif.Bus.C84_winner",
    "Verif.Bus.C84_undisturbed_bits",
    "Verif.Bus.C84_loser_partial",
    "Verif.Bus.C84_loser_silent",
    "Verif.Bus.C84_one_wins",
    "Verif.Bus.C84_not_both",
    "Verif.Bus.C84_33_us_late_misread"
   ],
   "note": "C84_winner, C84_undisturbed_bits, C84_loser_silent, C84_one_wins and C84_not_both hold as stated. C84_loser_partial: the overruling edge comes at most 32 µs late; with 33 µs, which the receiver accepts otherwise, the bit is misread (C84_33_us_late_misread). The winner's telegram is a standard, not repeated one for this device, and the receive buffer is free."
  },
  {
   "property": "C85",
   "status": "partial",
   "theorems": [
    "Verif.Bus.C85_at_most_once",
    "Verif.Bus.C85_success_means_delivered_partial",
    "Verif.Bus.C85_success_without_delivery",
    "Verif.Bus.C85_other_sender_duplicate"
   ],
   "note": "C85_at_most_once holds as stated. C85_success_means_delivered_partial: the last telegram that the partner delivered before differs from this one in more than the repeat flag and the check octet; without that a sender is told success for a telegram that the partner acknowledged and dropped (C85_success_without_delivery, the two-device form of C12_new_message_lost). The condition that no other sender's telegram arrives in between is necessary: C85_other_sender_duplicate. The line is the condition `Line`: a frame that passes parity and check octet is what the sender sent last; an acknowledgement heard directly after a transmission was sent by the partner since."
  },
  {
   "property": "C86",
   "status": "partial",
   "theorems": [
    "Verif.Com.C86_write_arrives_partial"
   ],
   "note": "C86_write_arrives_partial: for types of at most 6 bits the value must fit into 6 bits (C19_wide_bits_corrupt), the receiver's last telegram must not pass for this one (C85_success_without_delivery), no other object of the sender is pending (else the sender sends that one first, C57, C18), and the receiver processes the telegram before it receives another one. BCU1, BCU2 and mask 0701 objects (System B: C64)."
  },
  {
   "property": "C87",
   "status": "proved",
   "theorems": [
    "Verif.Boot.C87_entry",
    "Verif.Boot.C87_restart",
    "Verif.Boot.C87_power_on"
   ],
   "note": "C87_restart, C87_entry, C87_power_on. An application with the magic word as initial stack pointer would end up in the bootloader after every restart (example); such a pointer does not point into the RAM."
  },
  {
   "property": "C88",
   "status": "partial",
   "theorems": [
    "Verif.Dev.C88_contents_partial",
    "Verif.Dev.C88_after_restart_partial",
    "Verif.Dev.C88_last_write",
    "Verif.Dev.C88_not_written"
   ],
   "note": "Proved for devices without virtual memory and histories without property writes, address assignments and (on SYSTEMB) load records, and for bytes that load records do not manage: C88_contents_partial, C88_after_restart_partial; C88_last_write and C88_not_written say what lastWritten means. With property writes the claim about restarts is false (C68_property_load_lost), with virtual memory as well (C68_virtual_memory_lost)."
  },
  {
   "property": "C89",
   "status": "partial",
   "theorems": [
    "Verif.I2c.Slave.C89_received",
    "Verif.I2c.Slave.C89_acknowledged",
    "Verif.I2c.Slave.C89_last_byte_refused",
    "Verif.I2c.Slave.C89_answers",
    "Verif.I2c.Slave.C89_only_slave",
    "Verif.I2c.Slave.C89_called_address",
    "Verif.I2c.Slave.C89_not_addressed",
    "Verif.I2c.Slave.C89_sent_partial",
    "Verif.I2c.Slave.C89_beyond_the_buffer",
    "Verif.I2c.Slave.C89_general_call_unset",
    "Verif.I2c.Slave.C89_general_call_only"
   ],
   "note": "Receiving, addresses, events of received bytes: proved for every history (C89_received, C89_acknowledged, C89_answers, C89_called_address, C89_not_addressed, C89_only_slave) of a program whose addresses are not 0 and which sets up the general call slave if it asks for general calls. False of the code: the last byte of a receive buffer is never used (C89_last_byte_refused); a reading that begins when all bytes are sent gets a byte from behind the buffer (C89_beyond_the_buffer), so sending is proved for readings that begin before (C89_sent_partial); general calls without a slave for them use a null pointer (C89_general_call_unset); the setup documented for general calls only answers nothing (C89_general_call_only). Not modelled: a master transfer of the device at the same time, event handlers that change the transfer."
  },
  {
   "property": "C90",
   "status": "partial",
   "theorems": [
    "Verif.Wire.Bridge.C90_line_partial",
    "Verif.Wire.Bridge.C90_reset_without_pullup",
    "Verif.Wire.Bridge.C90_busy_byte_lost",
    "Verif.Wire.Bridge.C90_device_reset"
   ],
   "note": "Proved when no command keeps the line busy for a thousand readings of the status (C90_line_partial, C90_reset_without_pullup). False of the code otherwise: the driver goes on after the time limit and the byte is lost, only the error tells (C90_busy_byte_lost). deviceReset does not reset the chip but writes the byte 0xF0 to the devices (C90_device_reset). The I2C transfers are assumed to succeed; whether a strong pull-up asked for during another one counts is left open (parameter of the chip)."
  },
  {
   "property": "C91",
   "status": "partial",
   "theorems": [
    "Verif.Com.C91_read_answered_partial",
    "Verif.Com.C91_wide_value_lost"
   ],
   "note": "Proved when the value fits into the type (types of at most 6 bits; C91_wide_value_lost shows that it is false otherwise), when no other object of the asking device has a pending transmission, and when no telegram that a link layer received before passes for the new one (C85_success_without_delivery)."
  },
  {
   "property": "C92",
   "status": "proved",
   "theorems": [
    "Verif.Bus.C92_timing"
   ],
   "note": "The timer hardware (counter, match, capture) is modelled in Bus/TimeSpec.lean: it decides which interrupt comes next. While a device sends, it captures only its own pulses, at most 34 us late (txMany of C10). The tolerance of 25 us between start bits is exact (example beside the theorem)."
  },
  {
   "property": "C93",
   "status": "proved",
   "theorems": [
    "Verif.Bus.C93_telegram",
    "Verif.Bus.C93_acknowledge",
    "Verif.Bus.C93_telegram_shared",
    "Verif.Bus.C93_acknowledge_shared"
   ],
   "note": "The timer (counter, match with or without reset, capture) is modelled in Bus/AccessSpec.lean. The handler runs at one point in time, at most `lat` us after its cause; edges rejected by the spike filter are left out, and so are edges while the capture interrupt is off (end of an own transmission, while paused). The example beside the theorem shows that the latency term is needed. C93_telegram_shared and C93_acknowledge_shared: the same with the shared send buffer of C104, also for telegrams handed over again from inside the completion report."
  },
  {
   "property": "C94",
   "status": "partial",
   "theorems": [
    "Verif.Gas.C94_index_partial",
    "Verif.Gas.C94_numbers_partial"
   ],
   "note": "Floats are real numbers rounded after every operation by any function that is monotone, idempotent, exact on 24 bit numbers and accurate to 2^-23 (rounding downwards to binary32 is shown to be one); expf is accurate to 2^-20. Not a number is modelled. Missing: overflow is not, there is no largest number. The ends 1 and 500 of the range are shown to be reached."
  },
  {
   "property": "C95",
   "status": "proved",
   "theorems": [
    "Verif.Gas.C95_tuning",
    "Verif.Gas.C95_defaults",
    "Verif.Gas.C95_states",
    "Verif.Gas.C95_interval",
    "Verif.Gas.C95_running"
   ],
   "note": "Same arithmetic as C94. C95_running shows the limit of the claim: states restored while the algorithm is already running come back with the estimator's offset added."
  },
  {
   "property": "C96",
   "status": "proved",
   "theorems": [
    "Verif.Gas.C96_typical"
   ],
   "note": "Same arithmetic as C94; no value on the path is large, so the missing overflow does not matter unless the deviation itself is near the largest float."
  },
  {
   "property": "C97",
   "status": "proved",
   "theorems": [
    "Verif.Gas.C97_learned",
    "Verif.Gas.C97_resumed"
   ],
   "note": "Same arithmetic as C94. The deviation, which could drift under directed rounding, is only known not to be negative (C94)."
  },
  {
   "property": "C98",
   "status": "proved",
   "theorems": [
    "Verif.Lcd.C98_canvas",
    "Verif.Lcd.C98_text",
    "Verif.Lcd.C98_font",
    "Verif.Lcd.C98_begin_pattern",
    "Verif.Lcd.C98_newline"
   ],
   "note": "The display controller is modelled after the command list in the source file; its column address is taken to stay at the last column. The canvas starts with what begin leaves on the display (C98_begin_pattern)."
  },
  {
   "property": "C99",
   "status": "proved",
   "theorems": [
    "Verif.Sht.C99_history",
    "Verif.Sht.C99_no_sensor",
    "Verif.Sht.C99_status_unreadable",
    "Verif.Sht.C99_connection_reset"
   ],
   "note": "The sensor is an automaton after the data sheet. Writing a pin takes no time. The accuracy of the values is C100. getStatusRegister is not among the calls: it always fails (C99_status_unreadable); it begins with the pulses that reset the connection (C99_connection_reset)."
  },
  {
   "property": "C100",
   "status": "partial",
   "theorems": [
    "Verif.Sht.C100_sht1x_temperature",
    "Verif.Sht.C100_sht1x_humidity",
    "Verif.Sht.C100_getTemperature_partial",
    "Verif.Sht.C100_getTemperature_below_zero",
    "Verif.Sht.C100_getHumidity_partial",
    "Verif.Sht.C100_getHumidity_below_zero",
    "Verif.Sht.C100_sht1x_fahrenheit",
    "Verif.Sht.C100_sht4x",
    "Verif.Sht.C100_dht",
    "Verif.Sht.C100_ds18x20",
    "Verif.Sht.C100_units",
    "Verif.Sht.C100_bh1750",
    "Verif.Sht.C100_sgp4x",
    "Verif.Sht.C100_ccs811"
   ],
   "note": "GetTemperature and GetHumidity of the SHT1x are proved where the value is not below zero; below zero the code converts a negative float to uint16_t, which is undefined (C100_getTemperature_below_zero, C100_getHumidity_below_zero). readTemperatureF is 0.24 degrees too low (C100_sht1x_fahrenheit). Everything else is proved in full."
  },
  {
   "property": "C101",
   "status": "partial",
   "theorems": [
    "Verif.Text.C101_print_float_partial",
    "Verif.Text.C101_sign_lost",
    "Verif.Text.C101_no_places",
    "Verif.Text.C101_out_of_range",
    "Verif.Text.C101_println"
   ],
   "note": "Proved for all values that are not between -1 and 0. Between -1 and 0 the code drops the sign (C101_sign_lost). From 2^31 on the conversion to int is undefined (C101_out_of_range)."
  },
  {
   "property": "C102",
   "status": "partial",
   "theorems": [
    "Verif.Gas.C102_history_partial",
    "Verif.Gas.C102_index_partial",
    "Verif.Gas.C102_interval_zero",
    "Verif.Gas.C102_failure"
   ],
   "note": "Proved with one master on the bus, as C70 and C71. The range of the index is proved for sampling intervals of 1 to 10 whole seconds, as C94. With init(0) it is false: the index stays 0 for ever (C102_interval_zero)."
  },
  {
   "property": "C103",
   "status": "proved",
   "theorems": [
    "Verif.Com.C103_in_step",
    "Verif.Com.C103_sent"
   ],
   "note": "Without the condition that nobody else changes the value of i it is false: the receiver's own change, followed by a telegram dropped as a repetition, stays (the link-level case is C85_success_without_delivery)."
  },
  {
   "property": "C104",
   "status": "proved",
   "theorems": [
    "Verif.Bus.C104_refines",
    "Verif.Bus.C104_exclusive",
    "Verif.Bus.C104_no_wait",
    "Verif.Bus.C104_free",
    "Verif.Bus.C104_handed_over_again",
    "Verif.Bus.C104_repeat_flag_kept",
    "Verif.Bus.C104_not_given_up",
    "Verif.Bus.C104_bounded",
    "Verif.Bus.C104_released"
   ],
   "note": "A telegram handed over again keeps the repeat flag already cleared in the buffer (C104_repeat_flag_kept), so the first transmission of the new attempt is marked as a repetition. The check octet loop of prepareTelegram, which only reads, is one step with the store of its result."
  },
  {
   "property": "C105",
   "status": "partial",
   "theorems": [
    "Verif.Sht.C105_dht",
    "Verif.Sht.C105_dew_point_unique",
    "Verif.Sht.C105_dht_no_humidity",
    "Verif.Sht.C105_sht1x_partial",
    "Verif.Sht.C105_sht1x_whole_degrees",
    "Verif.Sht.C105_sht1x_no_sensor",
    "Verif.Sht.C105_sht2x_wrong",
    "Verif.Sht.C105_sht4x_wrong",
    "Verif.Sht.C105_sht1x_half_degree"
   ],
   "note": "The code is wrong otherwise: SHT1x divides the temperature by 100 as an integer (C105_sht1x_whole_degrees, C105_sht1x_half_degree), SHT2x puts hundredths into the formula (C105_sht2x_wrong: not a number or wrong by 50 degrees or more for every reading of at least 1 degree and 1 to 100 percent), SHT4x always returns -1 (C105_sht4x_wrong). Overflow of floats is not modelled."
  },
  {
   "property": "C106",
   "status": "partial",
   "theorems": [
    "Verif.Dev.C106_description",
    "Verif.Dev.C106_description_unknown",
    "Verif.Dev.C106_description_by_index_partial",
    "Verif.Dev.C106_enumeration",
    "Verif.Dev.C106_write_bit",
    "Verif.Dev.C106_read_partial",
    "Verif.Dev.C106_read_long",
    "Verif.Dev.C106_read_constant_partial",
    "Verif.Dev.C106_mask_version",
    "Verif.Dev.C106_other_descriptor",
    "Verif.Dev.C106_bcu1",
    "Verif.Dev.C106_authorization_granted",
    "Verif.Dev.C106_adc_zero",
    "Verif.Dev.C106_index_unchecked",
    "Verif.Dev.C106_reference_elements",
    "Verif.Dev.C106_systemb_overflow",
    "Verif.Dev.C106_table_beyond"
   ],
   "note": "Elements outside the memory are not covered (the code does not check them, see C26). Violations: object and index of a description by index are not checked (C106_index_unchecked), on System B a read of up to 12 bytes writes beyond the send buffer (C106_systemb_overflow), the number of elements of a table reference is the low byte of the address (C106_reference_elements), property 23 is read beyond its constant (C106_table_beyond). Also: authorization is granted to everybody (C106_authorization_granted), the ADC service always answers 0 (C106_adc_zero)."
  },
  {
   "property": "C107",
   "status": "proved",
   "theorems": [
    "Verif.Boot.C107_message",
    "Verif.Boot.C107_own_bytes",
    "Verif.Boot.C107_too_short",
    "Verif.Boot.C107_short_reads_beyond",
    "Verif.Boot.C107_other_services",
    "Verif.Boot.C107_history",
    "Verif.Boot.C107_locked_history",
    "Verif.Boot.C107_bootloader_survives",
    "Verif.Boot.C107_not_addressed",
    "Verif.Boot.C107_always_answers",
    "Verif.Boot.C107_without_connection",
    "Verif.Boot.C107_session"
   ],
   "note": "C107_session excludes connectionless telegrams to the bootloader because the code executes them (C107_without_connection). The counters of the statistics request are parameters of the model."
  },
  {
   "property": "C108",
   "status": "partial",
   "theorems": [
    "Verif.Boot.C108_answers",
    "Verif.Boot.C108_confirmed_update_partial",
    "Verif.Boot.C108_tool_commands",
    "Verif.Boot.C108_full_update_partial",
    "Verif.Boot.C108_differential_update_partial"
   ],
   "note": "Composition of C03, C107, C109, C80 and C81. C108_full_update_partial and C108_differential_update_partial: all commands acknowledged; conditions: working flash hardware, blocks of whole pages, no connectionless telegrams to the bootloader, one connection for the whole update (a tool that repeats commands over a new connection can fail: findings of C80 and C81); differential mode under the conditions of C80. C108_answers: the telegrams the client takes are the answers to its messages, one for each, in order (for messages without data for the decompressor, which can lead to undefined behaviour). C108_confirmed_update_partial: if these answers are all success, the image is in the flash, also if flash operations can fail; full mode only."
  },
  {
   "property": "C109",
   "status": "partial",
   "theorems": [
    "Verif.Dev.C109_memory_partial",
    "Verif.TL4.C109_dialogue"
   ],
   "note": "C109_dialogue holds for every application whose answers are data telegrams and every client; conditions: nobody else sends in the client's name, the rest of the device sends no telegrams with a transport part, the client knows which requests get an answer and waits for it before it transmits the next request. C109_memory_partial is the case of the memory services under the conditions of C22 (writes on a BCU1, which does not answer them)."
  },
  {
   "property": "C110",
   "status": "proved",
   "theorems": [
    "Verif.Boot.C110_update_completes",
    "Verif.TL4.C110_undisturbed",
    "Verif.TL4.C110_no_dead_end"
   ],
   "note": "C110_undisturbed: runs without losses. C110_no_dead_end: from every reachable state of a dialogue that is in time. C110_update_completes: the same for a full update with working flash. Conditions as in C109 (nobody else sends in the client's name, the rest of the device sends no telegrams with a transport part). The statements say that a continuation exists; that a particular client takes it is not stated."
  },
  {
   "property": "C111",
   "status": "partial",
   "theorems": [
    "Verif.I2c.C111_sessions",
    "Verif.I2c.C111_begin_exact",
    "Verif.I2c.C111_begin_partial",
    "Verif.I2c.C111_awake",
    "Verif.I2c.C111_no_pause",
    "Verif.I2c.C111_begin_stack"
   ],
   "note": "C111_awake: WAKE and the bus for every program; C111_sessions: every call but begin, exactly; C111_begin_exact: begin, exactly, for every sensor; C111_begin_partial: the claim about begin for sensors that answer every transfer. Missing because false: the pause of 20 microseconds (C111_no_pause), and begin with a sensor that stops answering (C111_begin_stack: the result is what was on the stack). One master on the bus, as C70. The conversion of temperature and humidity is C100."
  },
  {
   "property": "C112",
   "status": "partial",
   "theorems": [
    "Verif.Dev.C112_table_segment",
    "Verif.Dev.C112_application_segment",
    "Verif.Dev.C112_task_control",
    "Verif.Dev.C112_stores_nothing",
    "Verif.Dev.C112_allocation_partial",
    "Verif.Dev.C112_tables_apart_partial",
    "Verif.Dev.C112_moves_down",
    "Verif.Dev.C112_unload",
    "Verif.Dev.C112_unload_leaks",
    "Verif.Dev.C112_load_completed_partial",
    "Verif.Dev.C112_crc_detects",
    "Verif.Dev.C112_crc_of_nothing"
   ],
   "note": "C112_table_segment, C112_application_segment, C112_task_control, C112_stores_nothing: every byte after each load control. System B: C112_allocation_partial (without the fill flag, see C24_fill_overwrites), C112_tables_apart_partial (additionally: the size fits below the lowest address in use), C112_load_completed_partial (CRC of the table that reference and memory control block describe, if it lies in the EEPROM; objects 1 to 4), C112_crc_detects, C112_unload (exact). Missing because false: the reference and block that the end of loading and unloading use are not those the allocation writes, so the CRC is of another memory area (C112_crc_of_nothing) and address table and association table are not freed (C112_unload_leaks); a table allocated again moves down (C112_moves_down)."
  },
  {
   "property": "C113",
   "status": "partial",
   "theorems": [
    "Verif.Iap.C113_flash_size_partial",
    "Verif.Iap.C113_harmless",
    "Verif.Iap.C113_eeprom_sector_partial",
    "Verif.Iap.C113_odd_sectors",
    "Verif.Iap.C113_false_end"
   ],
   "note": "C113_flash_size_partial: the result for every flash size, equal to the size for multiples of 8 KB from 8 to 512 KB, if no call fails with the status for a missing sector; C113_eeprom_sector_partial: with it the address used in the model of the EEPROM (C28, C58) is the one the code computes; C113_harmless: flash unchanged and value kept, for any failures. Missing because false: an odd number of 4 KB sectors (C113_odd_sectors), a false status (C113_false_end)."
  },
  {
   "property": "C114",
   "status": "proved",
   "theorems": [
    "Verif.Pin.C114_fatal_error",
    "Verif.Pin.C114_hard_fault",
    "Verif.Pin.C114_default_pins",
    "Verif.Pin.C114_same_pin",
    "Verif.Pin.C114_blinks_for_ever"
   ],
   "note": "C114_fatal_error, C114_hard_fault: after any number of rounds, any two different pins; C114_default_pins: the pins of a program that sets none; C114_same_pin: LED and bus at one pin; C114_blinks_for_ever: on and off again and again if no round takes longer than 2^22 clocks. Interrupt handlers running meanwhile are not modelled (none in the library configures a pin)."
  },
  {
   "property": "C115",
   "status": "proved",
   "theorems": [
    "Verif.Boot.Startup.C115_startup",
    "Verif.Boot.Startup.C115_whole_words",
    "Verif.Boot.Startup.C115_endless"
   ],
   "note": "C115_startup, with the linker's layout as hypothesis (Layout; met by a concrete table, demoLayout). C115_whole_words: a length that is no multiple of 4 counts as the next multiple, the section's last word is written as a whole. C115_endless: what happens without the hypothesis on the length. The linker script is not in the repository, so that the real table is such a layout is not shown."
  },
  {
   "property": "C116",
   "status": "proved",
   "theorems": [
    "Verif.U8g.C116_picture",
    "Verif.U8g.C116_one_picture",
    "Verif.U8g.C116_pcd8544",
    "Verif.U8g.C116_too_high",
    "Verif.U8g.C116_colour_left_over"
   ],
   "note": "C116_picture is the property, C116_one_picture the case in which all groups show the same picture, C116_pcd8544 the points in the memory of the PCD8544 display, whose controller is modelled from the driver's comments. C116_too_high: with 249 rows or more the loop never ends. C116_colour_left_over: the colour of a call is kept for the next group of rows. The specification (U8g/Spec.lean: Covers, picture, userPoint) mentions neither pages nor clipping. The calls may also be circles, discs, rounded figures, texts and XBM bitmaps, within the limits of C118 to C121 (Allowed in U8g/Spec.lean). Not modelled: cursor, page buffers of other formats."
  },
  {
   "property": "C117",
   "status": "partial",
   "theorems": [
    "Verif.U8g.C117_line_partial",
    "Verif.U8g.C117_direction",
    "Verif.U8g.C117_endless",
    "Verif.U8g.C117_too_long",
    "Verif.U8g.C117_drawn_partial"
   ],
   "note": "C117_line_partial for lines whose longer side is at most 128 or that are parallel to an axis, and whose longer side does not reach the coordinate 255; C117_drawn_partial connects it to the picture of C116. The direction (C117_direction) is proved for all end points. Outside these bounds the property is false of the code: C117_endless (a line that reaches 255 with its longer side never ends, all cases), C117_too_long (a line of length 200 misses its end)."
  },
  {
   "property": "C118",
   "status": "partial",
   "theorems": [
    "Verif.U8g.C118_circle_partial",
    "Verif.U8g.C118_disc_partial",
    "Verif.U8g.C118_disc_is_filled_circle",
    "Verif.U8g.C118_no_gap",
    "Verif.U8g.C118_ends",
    "Verif.U8g.C118_too_large"
   ],
   "note": "C118_circle_partial and C118_disc_partial for radii up to 76, on top of the picture loop of C116 (pages, clipping, rotation). C118_disc_is_filled_circle, C118_no_gap and C118_ends hold for every radius. For every radius above 76 except 82 and 83 the property is false of the code (C118_too_large); the radii 82 and 83 are not covered by the positive theorems."
  },
  {
   "property": "C119",
   "status": "partial",
   "theorems": [
    "Verif.U8g.C119_frame_partial",
    "Verif.U8g.C119_box_partial",
    "Verif.U8g.C119_radius_zero",
    "Verif.U8g.C119_frame_on_box",
    "Verif.U8g.C119_band"
   ],
   "note": "C119_frame_partial: radius up to 76, sides of at least twice the radius and 2. C119_box_partial: the same with a height of at least twice the radius and 3. C119_radius_zero and C119_frame_on_box are about the figures themselves. For boxes with a height of exactly twice the radius and 2 the property is false of the code (C119_band); smaller sides and larger radii are not covered."
  },
  {
   "property": "C120",
   "status": "proved",
   "theorems": [
    "Verif.U8g.C120_letter",
    "Verif.U8g.C120_text",
    "Verif.U8g.C120_width",
    "Verif.U8g.C120_append",
    "Verif.U8g.C120_reference",
    "Verif.U8g.C120_program_memory"
   ],
   "note": "C120_letter: the search. C120_text: the picture. C120_width, C120_append, C120_reference. C120_program_memory shows that texts in program memory are displaced in three of the four directions."
  },
  {
   "property": "C121",
   "status": "partial",
   "theorems": [
    "Verif.U8g.C121_bitmap_partial",
    "Verif.U8g.C121_wide"
   ],
   "note": "C121_bitmap_partial: widths up to 248. For wider bitmaps the property is false of the code (C121_wide)."
  },
  {
   "property": "C122",
   "status": "partial",
   "theorems": [
    "Verif.Log.C122_buffer",
    "Verif.Log.C122_text_partial",
    "Verif.Log.C122_number",
    "Verif.Log.C122_numeral",
    "Verif.Log.C122_pointer",
    "Verif.Log.C122_unknown",
    "Verif.Log.C122_large_undefined",
    "Verif.Log.C122_smallest_undefined",
    "Verif.Log.C122_text_not_shortened",
    "Verif.Log.C122_deviations",
    "Verif.Log.C122_line_partial"
   ],
   "note": "C122_buffer is for every format and every arguments for which the call is defined. C122_text_partial and C122_line_partial leave out the cases in which the code differs from the C standard (predicate Plain): numbers it cannot show (C122_large_undefined, C122_smallest_undefined), the flag 0 together with a precision, # with the number zero or with an octal precision, the number zero with precision zero (C122_deviations; C122_number says exactly what is shown for every number), texts longer than a precision (C122_text_not_shortened). C122_pointer: %p. C122_unknown: other characters after a per cent sign."
  },
  {
   "property": "C123",
   "status": "proved",
   "theorems": [
    "Verif.Bus.C123_filter",
    "Verif.Bus.C123_filter_ends",
    "Verif.Bus.C123_spikes_ignored",
    "Verif.Bus.C123_own_pulse"
   ],
   "note": "C123_filter, C123_filter_ends: the loop that reads the line. C123_spikes_ignored: a run with disturbances put in gives the same log and the same state. C123_own_pulse. The time the handler spends in the loop is not part of the model."
  },
  {
   "property": "C124",
   "status": "proved",
   "theorems": [
    "Verif.Bus.C124_when",
    "Verif.Bus.C124_safe",
    "Verif.Bus.C124_waits",
    "Verif.Bus.C124_paused",
    "Verif.Bus.C124_sent",
    "Verif.Bus.C124_returns",
    "Verif.Bus.C124_returns_sending"
   ],
   "note": "C124_when: exactly when the call returns. C124_safe, C124_waits, C124_paused, C124_sent; C124_returns and C124_returns_sending: the call comes to an end on a quiet line. C124_safe also proves the remark of bus.cpp:133 that the output needs no change. Interrupts pending when the bus is paused are not modelled."
  },
  {
   "property": "C125",
   "status": "proved",
   "theorems": [
    "Verif.StreamTime.C125_timed_read",
    "Verif.StreamTime.C125_prompt",
    "Verif.StreamTime.C125_in_time",
    "Verif.StreamTime.C125_zero",
    "Verif.StreamTime.C125_read_bytes",
    "Verif.StreamTime.C125_find",
    "Verif.StreamTime.C125_parse"
   ],
   "note": "C125_timed_read, C125_in_time, C125_prompt: the wait for one byte. C125_read_bytes, C125_find, C125_parse: the functions, related to the outcome for bytes given at once (C53, C54). C125_zero: a timeout of zero. The receive buffer of a concrete stream is not part of this model (see the properties of the serial port)."
  },
  {
   "property": "C126",
   "status": "proved",
   "theorems": [
    "Verif.Boot.C126_refused",
    "Verif.Boot.C126_version",
    "Verif.Boot.C126_identity",
    "Verif.Boot.C126_first_address",
    "Verif.Boot.C126_statistic",
    "Verif.Boot.C126_descriptor"
   ],
   "note": "C126_refused: the order and status of the refusals. C126_version, C126_identity, C126_first_address, C126_statistic, C126_descriptor: the reports. C126_descriptor is about the MCU, where a plain store to a flash address is taken to have no effect (the code makes such stores when the descriptor is implausible); the unique id is told in C38_id_is_disclosed. Release build (features 0x0100)."
  },
  {
   "property": "C127",
   "status": "partial",
   "theorems": [
    "Verif.Rtc.C127_epoch_partial",
    "Verif.Rtc.C127_after_midnight",
    "Verif.Rtc.C127_failed_transfer"
   ],
   "note": "C127_epoch_partial: all times but 12:00 AM to 12:59 AM of the 12-hour format, for which the claim is false (C127_after_midnight). C127_failed_transfer: if a transfer fails, mktime is called with members that were never set. mktime is not modelled, nor the member tm_isdst, which GetEpoch never sets."
  },
  {
   "property": "C128",
   "status": "partial",
   "theorems": [
    "Verif.Knx.C128_header",
    "Verif.Knx.C128_read_header",
    "Verif.Knx.C128_change",
    "Verif.Knx.C128_service",
    "Verif.Knx.C128_set_service",
    "Verif.Knx.C128_set_sequence",
    "Verif.Knx.C128_sequence_partial",
    "Verif.Knx.C128_sequence_15",
    "Verif.Knx.C128_groups"
   ],
   "note": "Everything is proved but the reading of the sequence number when byte 6 is 0xFF (C128_sequence_partial), which is the negative acknowledge with the number 15 and is read as 255 (C128_sequence_15, the cause of C04_nak15_ignored). setApciCommand clears the bits of the transport layer (C128_set_service)."
  },
  {
   "property": "C129",
   "status": "proved",
   "theorems": [
    "Verif.Dev.C129_stored",
    "Verif.Dev.C129_inside",
    "Verif.Dev.C129_read",
    "Verif.Dev.C129_others",
    "Verif.Dev.C129_written_back"
   ],
   "note": "The caller's buffer is assumed to have the size it gives. Finding: if a tool writes back the value it has read, the value is reversed afterwards (C129_written_back, an instance of the C26 finding). Four of the ten bytes are outside the property's one element of six bytes."
  },
  {
   "property": "C130",
   "status": "partial",
   "theorems": [
    "Verif.Dev.Region.C130_created",
    "Verif.Dev.Region.C130_byte",
    "Verif.Dev.Region.C130_word_partial",
    "Verif.Dev.Region.C130_word_before",
    "Verif.Dev.Region.C130_in_range",
    "Verif.Dev.Region.C130_array",
    "Verif.Dev.Region.C130_moved"
   ],
   "note": "False for words at the address just before the memory: the check wraps around and the array is read at the index 2^32 - 1 (C130_word_before). C130_word_partial covers every other address."
  },
  {
   "property": "C131",
   "status": "partial",
   "theorems": [
    "Verif.Sht.C131_success",
    "Verif.Sht.C131_failure",
    "Verif.Sht.C131_measure_partial",
    "Verif.Sht.C131_history"
   ],
   "note": "C131_measure_partial leaves out a measurement during which the millisecond counter wraps around (it may fail, C71_sht4x_wrap); C131_success, C131_failure and C131_history have no such condition. Nothing is said about the values before the first success: the fields are not initialised."
  }
 ]
}
