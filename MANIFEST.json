{
 "claims": [
  {
   "property": "C01",
   "status": "proved",
   "theorems": [
    "Limage.C01_opaque_top",
    "Limage.C01_transparent_top",
    "Limage.C01_both_transparent"
   ],
   "note": "Opaque top, transparent top, both transparent."
  },
  {
   "property": "C02",
   "status": "proved",
   "theorems": [
    "Limage.C02_alpha_union",
    "Limage.C02_alpha_bounds"
   ],
   "note": "Exact value (ceiling of the union) and its consequences."
  },
  {
   "property": "C03",
   "status": "proved",
   "theorems": [
    "Limage.C03_between"
   ],
   "note": "Each channel between the inputs, one unit of rounding below."
  },
  {
   "property": "C04",
   "status": "proved",
   "theorems": [
    "Limage.C04_never_panics"
   ],
   "note": "All 2^32 modes, all colours, all draws."
  },
  {
   "property": "C05",
   "status": "proved",
   "theorems": [
    "Limage.C05_keeps_alpha",
    "Limage.C05_transparent_bottom",
    "Limage.C05_transparent_top"
   ],
   "note": "All fifteen modes."
  },
  {
   "property": "C06",
   "status": "partial",
   "theorems": [
    "Limage.C06_green_local_refuted",
    "Limage.C06_red_local_partial",
    "Limage.C06_grey_bottom_partial"
   ],
   "note": "False of the code: green and blue use the bottom red (composite.go:171-176). Refuted with a witness; the true part (red; grey bottoms) is proved."
  },
  {
   "property": "C07",
   "status": "proved",
   "theorems": [
    "Limage.C07_formula"
   ],
   "note": "Exact value over the rationals for ten modes and all three channels; green and blue use the red channel of the bottom (C06)."
  },
  {
   "property": "C08",
   "status": "partial",
   "theorems": [
    "Limage.C08_burn_refuted",
    "Limage.C08_burn_partial",
    "Limage.C08_black_top",
    "Limage.C08_underflow_is_white"
   ],
   "note": "False of the code: 1-(1-x)/y underflows and clamps to white; refuted. Proved where x+y reaches full intensity; the white region is characterised."
  },
  {
   "property": "C09",
   "status": "partial",
   "theorems": [
    "Limage.C09_hardlight_refuted",
    "Limage.C09_hardlight_partial"
   ],
   "note": "False of the code in the row y=0x7fff (wraps to white); refuted. Proved for every other y."
  },
  {
   "property": "C10",
   "status": "partial",
   "theorems": [
    "Limage.C10_fixes_refuted",
    "Limage.C10_white_refuted",
    "Limage.C10_monotone_partial",
    "Limage.C10_formula"
   ],
   "note": "Fixing black and white is false of the code (composite.go:214 uses 1-y twice); refuted. Monotonicity and the formula actually computed are proved."
  },
  {
   "property": "C11",
   "status": "partial",
   "theorems": [
    "Limage.C11_porter_duff_refuted",
    "Limage.C11_as_normal_partial"
   ],
   "note": "False of the code (all implemented as Normal); refuted. What they compute is proved."
  },
  {
   "property": "C12",
   "status": "proved",
   "theorems": [
    "Limage.C12_undefined_is_normal",
    "Limage.C12_string_total",
    "Limage.C12_names"
   ],
   "note": "All mode values."
  },
  {
   "property": "C13",
   "status": "partial",
   "theorems": [
    "Limage.C13_one_of_inputs",
    "Limage.C13_follows_top_refuted",
    "Limage.C13_follows_bottom_partial"
   ],
   "note": "First half proved. Second half false (draw compared with the bottom alpha); refuted, and what the code does is proved."
  },
  {
   "property": "C14",
   "status": "proved",
   "theorems": [
    "Limage.C14_alpha",
    "Limage.C14_hue_grey"
   ],
   "note": "All HSV/HSL modes, and Hue over grey."
  },
  {
   "property": "C15",
   "status": "proved",
   "theorems": [
    "Limage.C15_hsv_roundtrip",
    "Limage.C15_brightest"
   ],
   "note": "Within 7 units; V and alpha exact."
  },
  {
   "property": "C16",
   "status": "partial",
   "theorems": [
    "Limage.C16_hsl_refuted",
    "Limage.C16_grey_partial",
    "Limage.C16_raised_partial"
   ],
   "note": "False of the code for coloured pixels; refuted. Greys and alpha proved; colours of medium lightness come back with every channel raised by a quarter of their chroma (C16_raised_partial)."
  },
  {
   "property": "C17",
   "status": "proved",
   "theorems": [
    "Limage.C17_premultiplied",
    "Limage.C17_agrees"
   ],
   "note": "Holds exactly (no rounding difference)."
  },
  {
   "property": "C18",
   "status": "partial",
   "theorems": [
    "Limage.C18_rgb_idempotent",
    "Limage.C18_gray_refuted",
    "Limage.C18_gray_partial"
   ],
   "note": "RGB proved. GrayAlpha false for partly transparent pixels; refuted, opaque case proved."
  },
  {
   "property": "C19",
   "status": "proved",
   "theorems": [
    "Limage.C19_nearest",
    "Limage.C19_member",
    "Limage.C19_convert"
   ],
   "note": "Nearest, first, in range; Convert."
  },
  {
   "property": "C20",
   "status": "proved",
   "theorems": [
    "Limage.C20_opacity",
    "Limage.C20_monotone"
   ],
   "note": "Exact alpha floor(o*a/255); monotone."
  },
  {
   "property": "C21",
   "status": "proved",
   "theorems": [
    "Limage.C21_raster_is_map",
    "Limage.C21_last_write",
    "Limage.C21_paletted_at_total",
    "Limage.C21_paletted_index_outside"
   ],
   "note": "Refinement to a map from points to pixels for every program (creation, sub-images, writes in any order); explicit last-write form; PalettedAlpha.At total for colours written by Set."
  },
  {
   "property": "C22",
   "status": "proved",
   "theorems": [
    "Limage.C22_subimage_shows",
    "Limage.C22_write_shared",
    "Limage.C22_subimage_same_origin"
   ],
   "note": "For every program: bounds, pixels, sharing in both directions and nothing else changed."
  },
  {
   "property": "C23",
   "status": "partial",
   "theorems": [
    "Limage.C23_rgb",
    "Limage.C23_gray_sound",
    "Limage.C23_gray_whole",
    "Limage.C23_gray_subimage_refuted",
    "Limage.C23_paletted_refuted",
    "Limage.C23_paletted_inverted"
   ],
   "note": "RGB proved. GrayAlpha proved for images from NewGrayAlpha and soundness for all images; completeness false for sub-images (refuted). PalettedAlpha is exactly inverted (refuted, characterised)."
  },
  {
   "property": "C24",
   "status": "proved",
   "theorems": [
    "Limage.C24_contains",
    "Limage.C24_smallest",
    "Limage.C24_order"
   ],
   "note": "Contains every layer, least such, independent of order."
  },
  {
   "property": "C25",
   "status": "proved",
   "theorems": [
    "Limage.C25_irrelevant_layer",
    "Limage.C25_irrelevant_first",
    "Limage.C25_nothing_shows",
    "Limage.C25_nested"
   ],
   "note": "Any position, any depth; all-hidden gives transparent."
  },
  {
   "property": "C26",
   "status": "proved",
   "theorems": [
    "Limage.C26_top_opaque",
    "Limage.C26_painted_in_order"
   ],
   "note": "Exact pixel under any stack below, palette images included; and the general drawing order."
  },
  {
   "property": "C27",
   "status": "proved",
   "theorems": [
    "Limage.C27_layer_pixel",
    "Limage.C27_total",
    "Limage.C27_move",
    "Limage.C27_move_image"
   ],
   "note": "Pixel, opacity, and translation invariance of layers and of whole images."
  },
  {
   "property": "C28",
   "status": "partial",
   "theorems": [
    "Limage.C28_subimage_refuted",
    "Limage.C28_shift",
    "Limage.C28_subimage_partial",
    "Limage.C28_bounds"
   ],
   "note": "False of the code: SubImageLayer moves the corner without moving the pixels. Refuted; the shift is characterised and equality proved when nothing is cut off at the left or top."
  },
  {
   "property": "C29",
   "status": "proved",
   "theorems": [
    "Limage.C29_reader_decodes",
    "Limage.C29_writer_encodes",
    "Limage.C29_round_trip",
    "Limage.C29_channels"
   ],
   "note": "All data below 64 KiB; also several channels in one read."
  },
  {
   "property": "C30",
   "status": "proved",
   "theorems": [
    "Limage.C30_size",
    "Limage.C30_bounds"
   ],
   "note": "Holds for every length, including above 64 KiB where the code is no longer decodable."
  },
  {
   "property": "C31",
   "status": "partial",
   "theorems": [
    "Limage.C31_total",
    "Limage.C31_fills_buffer_partial",
    "Limage.C31_refuted",
    "Limage.C31_accepts_iff"
   ],
   "note": "Termination and buffer bounds proved for every source, buffer and state. \"Fills the buffer or reports an error\" is false for a literal cut by the 16 MiB limit of the reader (refuted); proved, with an exact acceptance criterion, when the source ends before the limit."
  },
  {
   "property": "C32",
   "status": "proved",
   "theorems": [
    "Limage.C32_same_pixels",
    "Limage.C32_outside_differs"
   ],
   "note": "For every source, tile layout and cache history, for palettes as the decoder builds them; outside the bounds indexed images differ (C32_outside_differs)."
  },
  {
   "property": "C33",
   "status": "partial",
   "theorems": [
    "Limage.C33_refuted",
    "Limage.C33_single_channel_partial"
   ],
   "note": "False: a run may extend over two channels of a tile, which only the eager decoder accepts (refuted). Proved for images with one channel in files below the reader limit; the converse direction is C32."
  },
  {
   "property": "C34",
   "status": "proved",
   "theorems": [
    "Limage.C34_once",
    "Limage.C34_contents"
   ],
   "note": "Proved for well-formed rectangles (min <= max, which the image package requires), fewer than 2^32 layers and fewer than 2^32 tiles per layer: WriteAt calls of a successful Encode cover [0,size) once each; contents do not depend on earlier contents or on the order of the calls."
  },
  {
   "property": "C35",
   "status": "proved",
   "theorems": [
    "Limage.C35_errors"
   ],
   "note": "For every image and every pattern of failing WriteAt calls: nil is returned iff every call succeeded, an error returned is that of a call made, and after a failing call the main writer writes nothing more."
  },
  {
   "property": "C36",
   "status": "proved",
   "theorems": [
    "Limage.C36_layout",
    "Limage.C36_pointer_value"
   ],
   "note": "FileAt (Spec/XcfFile.lean) describes the file independently of the encoder: every pointer is the offset of the structure it names. Numbers in the file have 32 bits; C36_pointer_value: within 4 GiB the stored number is the offset. Same size limits as C34."
  },
  {
   "property": "C37",
   "status": "partial",
   "theorems": [
    "Limage.C37_tree_partial",
    "Limage.C37_refuted"
   ],
   "note": "False in general: C37_refuted shows that a layer away from the origin comes back with other bounds (the canvas starts at the origin and the decoder clips to it). C37_tree_partial proves the whole tree for pictures inside their canvas, with modes the format has."
  },
  {
   "property": "C38",
   "status": "partial",
   "theorems": [
    "Limage.C38_pixels_partial",
    "Limage.C38_refuted",
    "Limage.C38_near_partial"
   ],
   "note": "False in general: C38_refuted gives a 16-bit colour that becomes white in an indexed file. C38_pixels_partial proves the pixels for 8-bit opaque colours and the colours the format keeps. C38_near_partial says what becomes of all others: any proper colour stays within 512/65535 in RGB files, opaque colours become greys of their brightness in grey files and the nearest palette colour (8 bits per channel) in indexed ones."
  },
  {
   "property": "C39",
   "status": "partial",
   "theorems": [
    "Limage.C39_refuted",
    "Limage.C39_bottom_refuted",
    "Limage.C39_modes_partial"
   ],
   "note": "False: C39_refuted (modes without a number of their own), C39_bottom_refuted (the lowest layer becomes Normal). C39_modes_partial proves all other cases."
  },
  {
   "property": "C40",
   "status": "partial",
   "theorems": [
    "Limage.C40_refuted",
    "Limage.C40_wrapped_partial"
   ],
   "note": "False: C40_refuted shows that no image other than a layered one can be read back. C40_wrapped_partial: wrapped in a layer it can."
  },
  {
   "property": "C41",
   "status": "partial",
   "theorems": [
    "Limage.C41_offset_refuted",
    "Limage.C41_compressed_refuted",
    "Limage.C41_origin_partial"
   ],
   "note": "False: C41_offset_refuted (mask on a layer off the origin is rejected), C41_compressed_refuted (DecodeCompressed panics). C41_origin_partial proves masks on layers at the origin."
  },
  {
   "property": "C42",
   "status": "partial",
   "theorems": [
    "Limage.C42_gray_refuted",
    "Limage.C42_indexed_refuted",
    "Limage.C42_alpha_partial"
   ],
   "note": "False: C42_gray_refuted, C42_indexed_refuted (translucent pixels change). C42_alpha_partial proves the alpha of RGB files."
  },
  {
   "property": "C43",
   "status": "partial",
   "theorems": [
    "Limage.C43_refuted",
    "Limage.C43_decode_partial",
    "Limage.C43_encoded",
    "Limage.C43_model_refuted"
   ],
   "note": "False for indexed files of versions 4 to 10 (C43_refuted: Decode accepts, DecodeConfig returns an error) and for the colour model of encoded images (C43_model_refuted). C43_decode_partial: for all other accepted files DecodeConfig returns the canvas, the colour model of the base type and the palette used by every decoded indexed image. C43_encoded: the configuration of every encoded image has its width and height and the colour model of the base type written."
  },
  {
   "property": "C44",
   "status": "partial",
   "theorems": [
    "Limage.C44_long_name",
    "Limage.C44_refuted",
    "Limage.C44_small_partial"
   ],
   "note": "False: C44_refuted; C44_long_name shows the failure for every picture with a name of almost 16 MiB. C44_small_partial proves the property for files of at most 16 MiB."
  },
  {
   "property": "C45",
   "status": "proved",
   "theorems": [
    "Limage.C45_rejected",
    "Limage.C45_accepted"
   ],
   "note": "Both directions; the error for each fault, for Decode, DecodeCompressed and DecodeConfig, for every continuation."
  },
  {
   "property": "C46",
   "status": "partial",
   "theorems": [
    "Limage.C46_refuted",
    "Limage.C46_config",
    "Limage.C46_terminates_partial",
    "Limage.C46_loops",
    "Limage.C46_images",
    "Limage.C46_forever",
    "Limage.C46_text_refuted",
    "Limage.C46_clean_partial"
   ],
   "note": "False of the code: an image of width 0 and height above 0xffffffc0 loops forever (image_decode.go:156, uint32 counter wraps), and so does a text description with a character no value can start with (C46_text_refuted). Proved for files without such an image in which the descriptions of text that occur contain only readable characters (C46_clean_partial). DecodeConfig always returns. C46_loops and C46_images relate the model to the loops over tiles with 32-bit counters as they are written; C46_forever: these run forever exactly for such an image."
  },
  {
   "property": "C47",
   "status": "partial",
   "theorems": [
    "Limage.C47_refuted",
    "Limage.C47_compressed_refuted",
    "Limage.C47_returns_partial",
    "Limage.C47_text_refuted"
   ],
   "note": "False of the code: sizes above the allocation limit, base types above 2, masks under DecodeCompressed, and text descriptions without a value for the text panic; refuted with concrete files. Proved for Decode without them, provided the text parser returns on the descriptions in the file."
  },
  {
   "property": "C48",
   "status": "proved",
   "theorems": [
    "Limage.C48_extends",
    "Limage.C48_truncated",
    "Limage.C48_short_read",
    "Limage.C48_no_error",
    "Limage.C48_sticky"
   ],
   "note": "An accepted file decodes to the same image whatever is appended, so no read went past its end; a cut-off file is never decoded to something else; short reads record an error, errors stick, and with one there is no image. (Reads of raw tiles that cross the 16 MiB limit of the section are short without an error; the limit itself is C44.)"
  },
  {
   "property": "C49",
   "status": "partial",
   "theorems": [
    "Limage.C49_refuted",
    "Limage.C49_property_partial",
    "Limage.C49_list_partial",
    "Limage.C49_unknown"
   ],
   "note": "False of the code for guides, sample points, colour maps of images without indexed colours, vectors with points, and nameless parasites (refuted with the payload of each). Proved for well-formed payloads of all other types, single and in whole lists, together with what each may change (the palette and the compression, nothing else); unknown types for every content."
  },
  {
   "property": "C50",
   "status": "proved",
   "theorems": [
    "Limage.C50_order"
   ],
   "note": "Every list of layers, every pair of iteration orders; also never panics."
  },
  {
   "property": "C51",
   "status": "proved",
   "theorems": [
    "Limage.C51_result",
    "Limage.C51_returns",
    "Limage.C51_sequential"
   ],
   "note": "Interleaving model with lock, wait group and goroutines that take any number of steps; every execution, progress and termination, and agreement with the sequential model used elsewhere."
  },
  {
   "property": "C52",
   "status": "partial",
   "theorems": [
    "Limage.C52_accepted",
    "Limage.C52_read",
    "Limage.C52_rejected",
    "Limage.C52_refuted"
   ],
   "note": "False for names that end behind 16 MiB in the file (C52_refuted). C52_read, C52_accepted and C52_rejected prove reading and rejection at the level of ReadString."
  },
  {
   "property": "C53",
   "status": "partial",
   "theorems": [
    "Limage.C53_refuted",
    "Limage.C53_at_partial",
    "Limage.C53_file_partial"
   ],
   "note": "False: C53_refuted gives a file whose pixel has a colour number outside the palette and a file with two groups in the same place, both accepted by Decode, on which At panics. C53_at_partial: At and ColorModel return for every decoded image in which no layer is without an image and palettes have 256 colours. C53_file_partial: conditions on the file instead (base type, palette size, distinct group places) under which no image is missing and At returns everywhere."
  },
  {
   "property": "C54",
   "status": "partial",
   "theorems": [
    "Limage.C54_text_partial",
    "Limage.C54_refuted",
    "Limage.C54_data_refuted",
    "Limage.C54_empty_refuted"
   ],
   "note": "False of the code: the colour (C54_refuted), characters that %q escapes (C54_data_refuted) and an empty text (C54_empty_refuted) do not survive. C54_text_partial: for a single run of printable text, what is read back has its text, font and size, and the base colour. The XML tokens, strconv and fmt are modelled from their documentation."
  },
  {
   "property": "C55",
   "status": "partial",
   "theorems": [
    "Limage.C55_exact",
    "Limage.C55_refuted",
    "Limage.C55_single_partial"
   ],
   "note": "False of the code: a text of several runs, or of none, has no base colour and crashes the encoder (C55_refuted). C55_exact states for which texts it succeeds; C55_single_partial the ones of a single run."
  },
  {
   "property": "C56",
   "status": "partial",
   "theorems": [
    "Limage.C56_nested_partial",
    "Limage.C56_markup_partial",
    "Limage.C56_order",
    "Limage.C56_refuted"
   ],
   "note": "False for fonts whose name has more < than > (C56_refuted): %q does not escape it. Proved for names without < (C56_nested_partial, C56_markup_partial); the order of opening and closing parts for all fonts (C56_order)."
  },
  {
   "property": "C57",
   "status": "partial",
   "theorems": [
    "Limage.C57_reads_partial",
    "Limage.C57_exclusive",
    "Limage.C57_sources",
    "Limage.C57_refuted"
   ],
   "note": "False of the code: GetReaderAt takes a seeker to be at position 0 without rewinding it (C57_refuted). Proved for a seeker at position 0 for every interleaving (C57_reads_partial), with mutual exclusion (C57_exclusive) and which readers are rewound (C57_sources)."
  },
  {
   "property": "C58",
   "status": "partial",
   "theorems": [
    "Limage.C58_refuted",
    "Limage.C58_step_left",
    "Limage.C58_goes_on_partial",
    "Limage.C58_all_return_partial"
   ],
   "note": "False of the code: a failed Seek returns without unlocking (C58_refuted: after it nothing happens any more). Proved for seekers that do not fail to seek: every state can go on and any number of calls can return (C58_goes_on_partial, C58_all_return_partial); every call has at most five steps (C58_step_left)."
  },
  {
   "property": "C59",
   "status": "proved",
   "theorems": [
    "Limage.C59_entries",
    "Limage.C59_layout"
   ],
   "note": "All layered images, whatever the PNG and XML libraries do."
  },
  {
   "property": "C60",
   "status": "partial",
   "theorems": [
    "Limage.C60_refuted",
    "Limage.C60_partial"
   ],
   "note": "False of the code: opacity is written as a second visibility attribute, so that all layers are read as opaque, and hidden translucent layers as visible. What is kept is proved for all layers. Assumes that XML and PNG are read as they were written (OraLib)."
  },
  {
   "property": "C61",
   "status": "partial",
   "theorems": [
    "Limage.C61_back",
    "Limage.C61_refuted",
    "Limage.C61_partial"
   ],
   "note": "False of the code: layers in groups that are not at the origin are moved. What is read is given exactly for every layered image (C61_back); it is the same tree with the same bounds if groups are at the origin and layers on the canvas (C61_partial)."
  },
  {
   "property": "C62",
   "status": "partial",
   "theorems": [
    "Limage.C62_modes_partial",
    "Limage.C62_refuted"
   ],
   "note": "False of the code for modes without a name in OpenRaster; a mode is kept if and only if it has one."
  },
  {
   "property": "C63",
   "status": "partial",
   "theorems": [
    "Limage.C63_refuted",
    "Limage.C63_partial"
   ],
   "note": "False of the code for every image that is not a group: what is written is never accepted. True of groups."
  },
  {
   "property": "C64",
   "status": "proved",
   "theorems": [
    "Limage.C64_returns",
    "Limage.C64_foreign"
   ],
   "note": "Token streams are arbitrary lists; encoding/xml itself is assumed. Foreign elements are put anywhere in the document, to any depth."
  },
  {
   "property": "C65",
   "status": "proved",
   "theorems": [
    "Limage.C65_outside",
    "Limage.C65_canvas"
   ],
   "note": "All archives that Decode accepts; DecodeConfig gives the canvas. C65_outside: the same for the bounds of the picture and its pixels outside."
  },
  {
   "property": "C66",
   "status": "proved",
   "theorems": [
    "Limage.C66_mime",
    "Limage.C66_missing",
    "Limage.C66_only"
   ],
   "note": "Entries whose declared size is the size of their contents (archive/zip checks it). The two errors are also returned for no other archive."
  },
  {
   "property": "C67",
   "status": "partial",
   "theorems": [
    "Limage.C67_size_partial",
    "Limage.C67_refuted"
   ],
   "note": "False of the code: At divides x by the scale twice instead of multiplying x and y, so that every column has one colour. The size of at most 256 by 256 is proved, under IEEE rounding of the division (Divides), and that images that are not larger are their own thumbnails."
  },
  {
   "property": "C68",
   "status": "partial",
   "theorems": [
    "Limage.C68_grain_merge_refuted",
    "Limage.C68_grain_merge_partial"
   ],
   "note": "False of the code (adds the mid grey); refuted, and what it computes is proved."
  },
  {
   "property": "C69",
   "status": "proved",
   "theorems": [
    "Limage.C69_mask",
    "Limage.C69_total"
   ],
   "note": "All images and masks."
  },
  {
   "property": "C70",
   "status": "proved",
   "theorems": [
    "Limage.C70_components",
    "Limage.C70_value_is_brightest",
    "Limage.C70_brightness"
   ],
   "note": "Components and brightness."
  },
  {
   "property": "C71",
   "status": "proved",
   "theorems": [
    "Limage.C71_behind"
   ],
   "note": "All colours."
  },
  {
   "property": "C72",
   "status": "proved",
   "theorems": [
    "Limage.C72_faithful",
    "Limage.C72_widen"
   ],
   "note": "All colour types."
  },
  {
   "property": "C73",
   "status": "proved",
   "theorems": [
    "Limage.C73_rgb",
    "Limage.C73_rgb_exact",
    "Limage.C73_gray",
    "Limage.C73_gray_exact",
    "Limage.C73_gray_of_grey",
    "Limage.C73_indexed"
   ],
   "note": "RGB, GrayAlpha, PalettedAlpha."
  },
  {
   "property": "C74",
   "status": "proved",
   "theorems": [
    "Limage.C74_encode_total",
    "Limage.C74_encode_succeeds"
   ],
   "note": "The description of text layers (text.go) is an assumption here; it is the subject of C55."
  },
  {
   "property": "C75",
   "status": "proved",
   "theorems": [
    "Limage.C75_parse"
   ],
   "note": "C75_parse: for every description that conforms to the grammar (Spec/Text.lean) the parser returns its meaning. The tokeniser library (vimagination.zapto.org/parser) is modelled from its documented behaviour."
  },
  {
   "property": "C76",
   "status": "partial",
   "theorems": [
    "Limage.C76_loop",
    "Limage.C76_panic_exact",
    "Limage.C76_reads_partial",
    "Limage.C76_steps",
    "Limage.C76_hang_refuted",
    "Limage.C76_panic_refuted"
   ],
   "note": "False of the code: C76_hang_refuted and C76_panic_refuted give byte strings that loop and panic. C76_panic_exact says when the second stage panics; C76_reads_partial: descriptions with readable characters return unless a tag lacks its value; C76_steps: apart from the endless loop the number of steps is bounded. C76_loop: the model against the loop of tokens as it is written."
  },
  {
   "property": "C77",
   "status": "proved",
   "theorems": [
    "Limage.C77_runs",
    "Limage.C77_unique",
    "Limage.C77_broken",
    "Limage.C77_layer"
   ],
   "note": "encoding/xml is modelled by the tokens it returns for a tree of elements (assumption: it returns balanced tokens). C77_runs, C77_unique, C77_broken and C77_layer."
  },
  {
   "property": "C78",
   "status": "partial",
   "theorems": [
    "Limage.C78_short_partial",
    "Limage.C78_refuted"
   ],
   "note": "False of the code: ReadAt calls Read once (C78_refuted). Proved for seekers whose Read fills the buffer or returns an error (C78_short_partial)."
  },
  {
   "property": "C79",
   "status": "partial",
   "theorems": [
    "Limage.C79_refuted",
    "Limage.C79_partial"
   ],
   "note": "False of the code: the error of zw.Close is dropped (deferred). Failures of all entries are reported."
  },
  {
   "property": "C80",
   "status": "partial",
   "theorems": [
    "Limage.C80_exact",
    "Limage.C80_places_partial",
    "Limage.C80_refuted",
    "Limage.C80_partial"
   ],
   "note": "False of the code: images more than 256 times as wide as high get an empty thumbnail, which png.Encode refuses. C80_exact gives the exact condition for images at any place; C80_places_partial: sides in a ratio of at most 128 always suffice, C80_partial: 256 at the origin."
  },
  {
   "property": "C81",
   "status": "proved",
   "theorems": [
    "Limage.C81_topmost",
    "Limage.C81_all_or_nothing"
   ],
   "note": "All layered images with a palette and all layers."
  },
  {
   "property": "C82",
   "status": "proved",
   "theorems": [
    "Limage.C82_pixels",
    "Limage.C82_encode"
   ],
   "note": "All images without a visible Dissolve layer, any random source."
  },
  {
   "property": "C83",
   "status": "partial",
   "theorems": [
    "Limage.C83_same_tile_partial",
    "Limage.C83_refuted"
   ],
   "note": "False of the code: the buffer is shared without a lock. Two calls in different tiles return the same pixel, and the buffer stays wrong for later calls. True of calls in one tile, in every interleaving."
  },
  {
   "property": "C84",
   "status": "partial",
   "theorems": [
    "Limage.C84_refuted",
    "Limage.C84_pair_partial",
    "Limage.C84_stack_partial",
    "Limage.C84_stack_refuted",
    "Limage.C84_own"
   ],
   "note": "False for mode Color, which takes the alpha of the layer on top, and when only the upper layers are indexed; proved for the other modes."
  },
  {
   "property": "C85",
   "status": "partial",
   "theorems": [
    "Limage.C85_partial",
    "Limage.C85_refuted"
   ],
   "note": "Proved for pictures without text layers: every pixel of RGB files, opaque pixels of grey and indexed ones; false for half transparent grey pixels."
  },
  {
   "property": "C86",
   "status": "partial",
   "theorems": [
    "Limage.C86_looks_partial",
    "Limage.C86_refuted",
    "Limage.C86_origin_refuted",
    "Limage.C86_indexed_refuted"
   ],
   "note": "C86_looks_partial: every pixel of the decoded picture equals that of the original, for pictures whose colours the format holds exactly, whose images start at the origin, whose lowest layer keeps its mode and whose color model is not a palette. Without these it is false: C86_refuted (lowest layer Multiply), C86_origin_refuted (images off the origin), C86_indexed_refuted (palettes)."
  },
  {
   "property": "C87",
   "status": "partial",
   "theorems": [
    "Limage.C87_pixels_partial",
    "Limage.C87_refuted"
   ],
   "note": "Proved with the law PngPixels of image/png (which of its formats is used and how each rounds) for images that are opaque if they say so; refuted for PalettedAlpha, whose Opaque method is inverted."
  },
  {
   "property": "C88",
   "status": "partial",
   "theorems": [
    "Limage.C88_looks_partial",
    "Limage.C88_opacity_refuted",
    "Limage.C88_origin_refuted"
   ],
   "note": "Proved for pictures on their canvas of opaque layers with OpenRaster modes in groups at the origin, whose images start at the origin; refuted for translucent layers and for images that do not start at the origin."
  },
  {
   "property": "C89",
   "status": "partial",
   "theorems": [
    "Limage.C89_partial",
    "Limage.C89_modes_refuted",
    "Limage.C89_outside_refuted",
    "Limage.C89_group_refuted"
   ],
   "note": "Proved for compressed files of all versions with properties in any order; conditions: the properties of the image are handled (C49), layers lie on the canvas, masks at its origin, groups have no masks, modes are Normal in grey and indexed files. Refuted for modes in grey files, for layers that begin left of the canvas and for layers in groups that do (C89_group_refuted: the group is cut at the canvas, decoder.go:404, but its layers are placed by where it began, decoder.go:397-398); the other conditions are needed by C41, C47, C49."
  },
  {
   "property": "C90",
   "status": "partial",
   "theorems": [
    "Limage.C90_partial",
    "Limage.C90_refuted"
   ],
   "note": "Refuted: pixels of more than one channel are read channel after channel although the format has them pixel after pixel. Proved for grey and indexed images without alpha, of every version, by Decode and DecodeCompressed."
  },
  {
   "property": "C91",
   "status": "proved",
   "theorems": [
    "Limage.C91_accepted"
   ],
   "note": "Proved for every accepted sequence of bytes and both decoders. The model has one colour model for RGB with and without alpha, so that the claim on alpha speaks of grey and indexed images."
  },
  {
   "property": "C92",
   "status": "partial",
   "theorems": [
    "Limage.C92_style_partial",
    "Limage.C92_refuted",
    "Limage.C92_size_refuted"
   ],
   "note": "Refuted: the background is lost, as no attribute of that name is read, and the number of a size from 2^22 on overflows. Proved for the rest of the style, for fonts named in printable ASCII without quotes, backslashes, < and &. The text itself gains quotes (fmt's %q), which is why the claim is on the elements around it."
  },
  {
   "property": "C93",
   "status": "partial",
   "theorems": [
    "Limage.C93_lowest_partial",
    "Limage.C93_whole",
    "Limage.C93_refuted",
    "Limage.C93_mixed_refuted"
   ],
   "note": "Refuted: a layer in mode Color takes the lightness even of fully transparent pixels below it, and a picture only whose upper layers have a palette decides for each layer whether it covers a pixel. Proved when no layer in mode Color shows at the point and the layers in the group have a palette if and only if the picture has one; a whole picture can always be grouped (C93_whole)."
  },
  {
   "property": "C94",
   "status": "partial",
   "theorems": [
    "Limage.C94_partial",
    "Limage.C94_others",
    "Limage.C94_accepted",
    "Limage.C94_encoded",
    "Limage.C94_position_refuted",
    "Limage.C94_reader_refuted"
   ],
   "note": "Refuted for readers of which something has been read, as decoding starts at offset 0 and not where the signature was seen, and for readers without random access, which are recognised and refused. Proved for all readers with random access at their start; what other formats are is left alone whatever the reader."
  },
  {
   "property": "C95",
   "status": "partial",
   "theorems": [
    "Limage.C95_size",
    "Limage.C95_merged_partial",
    "Limage.C95_grey_refuted"
   ],
   "note": "The size is proved for all images. The merged image is refuted for pictures whose first layer has a grey model, which become grey and opaque; proved for layered pictures without Dissolve layers whose first layer has neither a grey model nor a palette, from what is assumed of PNG files in Spec/Png and that png.Encode looks at all pixels of images without an Opaque method."
  },
  {
   "property": "C96",
   "status": "proved",
   "theorems": [
    "Limage.C96_draws",
    "Limage.C96_steady"
   ],
   "note": "Proved for all trees of images in the model."
  },
  {
   "property": "C97",
   "status": "proved",
   "theorems": [
    "Limage.C97_picture",
    "Limage.C97_transparency"
   ],
   "note": "Proved for all modes. Images that are not layered pictures return what they like."
  },
  {
   "property": "C98",
   "status": "partial",
   "theorems": [
    "Limage.C98_paths",
    "Limage.C98_state",
    "Limage.C98_vectors_refuted",
    "Limage.C98_vectors_partial"
   ],
   "note": "ReadPaths proved in full for lists of up to 16 MiB with UTF-8 names (C98_paths, C98_state). ReadVectors panics for every list that is not empty (C98_vectors_refuted); for the empty list it does what it should (C98_vectors_partial). Neither function is called by another one in the package."
  },
  {
   "property": "C99",
   "status": "proved",
   "theorems": [
    "Limage.C99_decoded",
    "Limage.C99_written",
    "Limage.C99_back",
    "Limage.C99_runs"
   ],
   "note": "The tokens that encoding/xml finds are a parameter. C99_decoded holds of every description that is accepted; C99_written for those written from given tags; C99_back of what C54 says comes back from an XCF file."
  },
  {
   "property": "C100",
   "status": "partial",
   "theorems": [
    "Limage.C100_layers_partial",
    "Limage.C100_picture_partial",
    "Limage.C100_cut_refuted",
    "Limage.C100_group_refuted"
   ],
   "note": "Layers: all documents whose stacks are at the origin. Picture: documents without nested stacks whose layers start in the canvas; for layers that start left of or above it, and for layers in stacks, the code shows them displaced (refuted theorems)."
  },
  {
   "property": "C101",
   "status": "proved",
   "theorems": [
    "Limage.C101_moved",
    "Limage.C101_bounds"
   ],
   "note": "Proved in full."
  },
  {
   "property": "C102",
   "status": "partial",
   "theorems": [
    "Limage.C102_exchanged_partial",
    "Limage.C102_first",
    "Limage.C102_palette_refuted"
   ],
   "note": "Refuted when only one of the layers exchanged has a palette and it is or becomes the first: the picture takes its color model from it, and with a palette translucent pixels are not shown. Proved for all other exchanges, in particular whenever the first layer stays first (C102_first)."
  },
  {
   "property": "C103",
   "status": "proved",
   "theorems": [
    "Limage.C103_pair",
    "Limage.C103_stack",
    "Limage.C103_picture"
   ],
   "note": "Proved for all pairs of colours (C103_pair), all lists of colours (C103_stack) and pictures of Normal layers without a palette (C103_picture)."
  },
  {
   "property": "C104",
   "status": "partial",
   "theorems": [
    "Limage.C104_pixel_partial",
    "Limage.C104_layer_partial",
    "Limage.C104_refuted",
    "Limage.C104_color_refuted"
   ],
   "note": "False of the code for layers in the modes Dissolve, Saturation, Color, Value and Luminosity (C104_refuted, each with a witness) and below layers in mode Color (C104_color_refuted). Proved for all other modes, with and without palettes (C104_pixel_partial, C104_layer_partial)."
  },
  {
   "property": "C105",
   "status": "partial",
   "theorems": [
    "Limage.C105_neutral_partial",
    "Limage.C105_neutral_refuted",
    "Limage.C105_symmetric_partial",
    "Limage.C105_symmetric_refuted",
    "Limage.C105_self"
   ],
   "note": "False of the code for colours, as green and blue use the red below: an opaque white Multiply layer turns red into white (C105_neutral_refuted), and red times green is not green times red (C105_symmetric_refuted). Proved for the red channel and for greys; C105_self in full."
  },
  {
   "property": "C106",
   "status": "proved",
   "theorems": [
    "Limage.C106_size",
    "Limage.C106_single"
   ],
   "note": "Proved; C106_single gives the bound for a single layer in closed form."
  },
  {
   "property": "C107",
   "status": "partial",
   "theorems": [
    "Limage.C107_differ_partial",
    "Limage.C107_refuted"
   ],
   "note": "False in general: colours of 16 bits per channel that agree in the upper bits have the same file (C107_refuted). Proved for pictures that can be stored without loss (the conditions of C86)."
  },
  {
   "property": "C108",
   "status": "proved",
   "theorems": [
    "Limage.C108_picture",
    "Limage.C108_grouped"
   ],
   "note": "Proved in full (C108_picture, C108_grouped). The bounds are not claimed to be the best possible."
  },
  {
   "property": "C109",
   "status": "partial",
   "theorems": [
    "Limage.C109_stored_partial",
    "Limage.C109_refuted"
   ],
   "note": "False for images that do not start at the origin (C109_refuted), and for grey and indexed files (C42, C86). Proved for RGB files with the conditions of C37 on what can be stored and images that start at the origin."
  },
  {
   "property": "C110",
   "status": "partial",
   "theorems": [
    "Limage.C110_stored_partial",
    "Limage.C110_refuted"
   ],
   "note": "False for layers that are not opaque, as opacities are not read back (C110_refuted), for images that do not start at the origin (C88_origin_refuted) and for groups that do not (C61_refuted). Proved for the others, with masks, texts and groups."
  },
  {
   "property": "C111",
   "status": "proved",
   "theorems": [
    "Limage.C111_bound",
    "Limage.C111_not_total"
   ],
   "note": "C111_bound for both decoders; C111_not_total gives a file of 219 bytes whose eight layers cover more than 1024 pixels per byte together, as pointers may be repeated."
  },
  {
   "property": "C112",
   "status": "partial",
   "theorems": [
    "Limage.C112_again_partial",
    "Limage.C112_refuted"
   ],
   "note": "Proved for pictures whose layers lie on the canvas, have the sizes of their images and are in groups at the origin, without palettes; the names of what was loaded are proved to be text that XML keeps. False in general: Decode forgets the canvas, so that a loaded picture whose layers do not begin at the origin is saved with a canvas on which they are not, and is lost."
  },
  {
   "property": "C113",
   "status": "proved",
   "theorems": [
    "Limage.C113_inside"
   ],
   "note": "C113_inside: runEncode is equal (all WriteAt calls, the error, panics) for pictures related by Spec.SeenTop, which compares pixels only inside image bounds and inside drawn layers, up to colours that cannot be told apart."
  },
  {
   "property": "C114",
   "status": "partial",
   "theorems": [
    "Limage.C114_raster_partial",
    "Limage.C114_cropped_refuted"
   ],
   "note": "C114_raster_partial: holds for RGB, GrayAlpha and PalettedAlpha, in every state a program can reach. C114_cropped_refuted: Image.SubImage (image.go:63-71, layer.go:36-40) keeps the whole images of the layers, and Encode writes them whole; two cropped pictures that show the same everywhere give different files."
  },
  {
   "property": "C115",
   "status": "partial",
   "theorems": [
    "Limage.C115_either_partial",
    "Limage.C115_refuted"
   ],
   "note": "Proved for files whose base type is RGB, grey or indexed. Refuted for unknown base types (accepted by DecodeCompressed, Decode crashes), and the other way round (a mask in a compressed file crashes DecodeCompressed). Single layers read outside their bounds can differ (C32_outside_differs); no layer of a decoded picture shows such points."
  },
  {
   "property": "C116",
   "status": "partial",
   "theorems": [
    "Limage.C116_min",
    "Limage.C116_max",
    "Limage.C116_mid_partial",
    "Limage.C116_mid_refuted"
   ],
   "note": "Min and Max proved for all lists that are not empty. Mid adds in 16 bits: proved where the sum fits, refuted for every other list (the result is then below all the numbers). Mid is used nowhere else in the code."
  },
  {
   "property": "C117",
   "status": "proved",
   "theorems": [
    "Limage.C117_raster",
    "Limage.C117_layers",
    "Limage.C117_order"
   ],
   "note": "Proved: equal as values (bounds, stride, position in the shared array). That SubImage never panics on images a program can make is C22."
  },
  {
   "property": "C118",
   "status": "partial",
   "theorems": [
    "Limage.C118_convert_partial",
    "Limage.C118_refuted"
   ],
   "note": "Proved for RGB pictures with layers on the canvas, of the size of their images, in groups at the origin, names in UTF-8, the lowest layer Normal, files up to 16 MiB; assumed: every pixel of a decoded PNG can be read. Refuted for the modes Luminosity, Plus, DestinationIn, DestinationOut, SourceAtop and DestinationAtop, which XCF files written by Encode have no number for."
  },
  {
   "property": "C119",
   "status": "proved",
   "theorems": [
    "Limage.C119_colours"
   ],
   "note": "Colours are those of the model: the Go types NRGBA, lcolor.RGB, Gray, GrayAlpha. For compressed images, of what is read without an error."
  },
  {
   "property": "C120",
   "status": "partial",
   "theorems": [
    "Limage.C120_convert_partial",
    "Limage.C120_refuted"
   ],
   "note": "Proved for RGB files with opaque layers without masks, with OpenRaster modes, on the canvas, of the size of their images, in groups at the origin, smaller than 2^31; translucent images must be stored as NRGBA PNG files. Refuted for layers with an opacity, which is not read back."
  },
  {
   "property": "C121",
   "status": "proved",
   "theorems": [
    "Limage.C121_needed"
   ],
   "note": "What comes before the end of the first stack is all needed, what comes after is not looked at. The whole archive and the library functions stay the same while the tokens change; `BrokenOff` says that the error of the XML decoder is returned if it reports one."
  },
  {
   "property": "C122",
   "status": "partial",
   "theorems": [
    "Limage.C122_layer_partial",
    "Limage.C122_small",
    "Limage.C122_columns_refuted"
   ],
   "note": "Layers: proved up to the accuracy of PNG files, for all models but grey ones and palettes (C95 covers whole pictures). Small pictures: proved. Thumbnails of larger pictures do not show the picture: every column has one colour (refuted, see C67)."
  },
  {
   "property": "C123",
   "status": "proved",
   "theorems": [
    "Limage.C123_whole",
    "Limage.C123_layer",
    "Limage.C123_previews",
    "Limage.C123_after"
   ],
   "note": "The archive gets its directory in any case, as zw.Close is deferred. C123_layer: refused for every library. C123_previews: read as C61_back tells, with its conditions (OraLib, sizes below 2^31). C123_whole: without an error the archive is that of C59. Not covered: writers that fail."
  },
  {
   "property": "C124",
   "status": "partial",
   "theorems": [
    "Limage.C124_labels",
    "Limage.C124_resave_partial",
    "Limage.C124_refuted"
   ],
   "note": "C124_labels: names are UTF-8, modes of RGB files those of the format (or Luminance). C124_resave_partial: the picture comes back with the same tree and the same colours if the layers lie on the canvas uncut and no mode is Luminance. C124_refuted: a file with a layer of mode 56 (Luminance) is loaded, saved without an error and loaded with another mode."
  },
  {
   "property": "C125",
   "status": "partial",
   "theorems": [
    "Limage.C125_written",
    "Limage.C125_colour_partial",
    "Limage.C125_refuted"
   ],
   "note": "C125_written: the exact digits written. C125_colour_partial: the value is the colour of the background if the three 16-bit values have equally many digits (all 8-bit channels at least 16). C125_refuted: for every red background of value 16 or more the attribute is no colour, however it is divided."
  },
  {
   "property": "C126",
   "status": "partial",
   "theorems": [
    "Limage.C126_partial",
    "Limage.C126_refuted",
    "Limage.C126_color_refuted"
   ],
   "note": "Proved (exact equality) for all modes but Dissolve, Saturation, Color, Value and Luminosity, and for these at all points where the layer is not fully transparent. Refuted for each of these where the pixel is fully transparent and coloured: the colour then matters, and a group loses it (Color only under another layer in mode Color)."
  },
  {
   "property": "C127",
   "status": "proved",
   "theorems": [
    "Limage.C127_ignored",
    "Limage.C127_layers"
   ],
   "note": "C127_ignored: archives that agree on the entries of the names used are read alike, for any choice of further names. C127_layers: where each layer comes from, and how many there can be. Nothing is assumed of the libraries."
  },
  {
   "property": "C128",
   "status": "partial",
   "theorems": [
    "Limage.C128_errors",
    "Limage.C128_size_partial",
    "Limage.C128_refuted",
    "Limage.C128_model_refuted",
    "Limage.C128_negative_refuted"
   ],
   "note": "C128_errors: errors agree. C128_size_partial: the size is that of a canvas at the origin that all of the picture is on, and of the picture if a layer fills the canvas. Refuted: smaller pictures (C128_refuted), grey pictures (C128_model_refuted), negative widths (C128_negative_refuted)."
  },
  {
   "property": "C129",
   "status": "proved",
   "theorems": [
    "Limage.C129_grows",
    "Limage.C129_only",
    "Limage.C129_opacity"
   ],
   "note": "C129_grows for trees that differ in pixels, masks and opacities at any depth, C129_only for equal coverages, C129_opacity for the opacity of one layer. Layers that are shown or hidden are C84 (where mode Color is an exception)."
  },
  {
   "property": "C130",
   "status": "proved",
   "theorems": [
    "Limage.C130_grey",
    "Limage.C130_file"
   ],
   "note": "C130_grey, for pictures of any depth and all modes. C130_file, for accepted files of base type 1. A pixel counts as grey if its channels agree with and without alpha multiplied in."
  },
  {
   "property": "C131",
   "status": "partial",
   "theorems": [
    "Limage.C131_channels_partial",
    "Limage.C131_red_partial",
    "Limage.C131_refuted"
   ],
   "note": "C131_channels_partial: all modes but the separable ones and those of hue, for any two channels. C131_red_partial: red in the separable modes as well. C131_refuted: green under Multiply."
  },
  {
   "property": "C132",
   "status": "partial",
   "theorems": [
    "Limage.C132_inside_partial",
    "Limage.C132_refuted"
   ],
   "note": "C132_inside_partial: pictures made of layers of any size, and others of at most 256 by 256 pixels, for every PNG encoder that keeps the law Spec.PngInside. C132_refuted: a picture of 1024 by 4 pixels, whose thumbnail reads the point (63, 63)."
  },
  {
   "property": "C133",
   "status": "partial",
   "theorems": [
    "Limage.C133_raster_partial",
    "Limage.C133_cropped_refuted"
   ],
   "note": "C133_raster_partial: the raster types of limage. C133_cropped_refuted: SubImage of an Image with layers."
  },
  {
   "property": "C134",
   "status": "partial",
   "theorems": [
    "Limage.C134_documented_partial",
    "Limage.C134_modes_refuted"
   ],
   "note": "C134_documented_partial: FileIn, the description of files by which C89 and C90 say what is read, holds of what Encode writes. C134_modes_refuted: every other mode, on the upper of two layers. Partly transparent grey and indexed colours are C42."
  },
  {
   "property": "C135",
   "status": "partial",
   "theorems": [
    "Limage.C135_documented_partial",
    "Limage.C135_refuted"
   ],
   "note": "C135_documented_partial: solid layers with modes of OpenRaster that do not start left of or above their parent. C135_refuted: no opacity is ever written, hidden partly transparent layers have the visibility attribute twice (which is not XML), negative positions and other modes are left out."
  },
  {
   "property": "C136",
   "status": "proved",
   "theorems": [
    "Limage.C136_read",
    "Limage.C136_same",
    "Limage.C136_count",
    "Limage.C136_printable"
   ],
   "note": "C136_read, C136_same: through Parse (C75). C136_printable: the comparison with %q, whose exact range is C54."
  },
  {
   "property": "C137",
   "status": "proved",
   "theorems": [
    "Limage.C137_reads",
    "Limage.C137_list"
   ],
   "note": "C137_reads: from the format. C137_list: against ReadParasites, for every state of the reader."
  },
  {
   "property": "C138",
   "status": "partial",
   "theorems": [
    "Limage.C138_lightens_refuted",
    "Limage.C138_darkens_refuted",
    "Limage.C138_by_one_refuted",
    "Limage.C138_lightens_partial",
    "Limage.C138_darkens_partial",
    "Limage.C138_stack_lightens_partial",
    "Limage.C138_stack_darkens_partial"
   ],
   "note": "False as stated: the red of what is below is used for all channels (C06), and half-covering layers can darken by one by rounding. Proved: red (and green and blue where they are as red below) gets darker by one per layer at most in lightening modes, not at all under opaque layers; never lighter in darkening modes; coverage is kept; for whole stacks of upper layers."
  },
  {
   "property": "C139",
   "status": "partial",
   "theorems": [
    "Limage.C139_cut_partial",
    "Limage.C139_group_refuted"
   ],
   "note": "C139_cut_partial: pictures of storable layers (as for C37) whose last layer is not a group. C139_group_refuted: behind a final empty group the pixels written for it may be missing."
  },
  {
   "property": "C140",
   "status": "proved",
   "theorems": [
    "Limage.C140_best",
    "Limage.C140_runs",
    "Limage.C140_file",
    "Limage.C140_single"
   ],
   "note": "C140_best: against every encoding allowed by the format. C140_runs: in terms of runs. C140_file, C140_single: of files."
  },
  {
   "property": "C141",
   "status": "proved",
   "theorems": [
    "Limage.C141_several",
    "Limage.C141_hidden",
    "Limage.C141_order",
    "Limage.C141_sharp",
    "Limage.C141_opaque",
    "Limage.C141_even"
   ],
   "note": "The exact statement that the order of masks cannot be seen is false by one step; C141_sharp shows that this slack is needed."
  },
  {
   "property": "C142",
   "status": "partial",
   "theorems": [
    "Limage.C142_opaque",
    "Limage.C142_any",
    "Limage.C142_difference",
    "Limage.C142_hardlight_partial",
    "Limage.C142_burn_partial",
    "Limage.C142_refuted",
    "Limage.C142_picture"
   ],
   "note": "Proved for Normal, Dissolve, Behind, Multiply/Screen, Darken/Lighten only, Difference and pictures made of them; Dodge/Burn and Hard Light only where C142_refuted does not apply."
  },
  {
   "property": "C143",
   "status": "proved",
   "theorems": [
    "Limage.C143_head",
    "Limage.C143_longer",
    "Limage.C143_encoded"
   ],
   "note": "C143_head: any file, 30 bytes. C143_longer: any file and any extension. C143_encoded: files of Encode."
  },
  {
   "property": "C144",
   "status": "partial",
   "theorems": [
    "Limage.C144_saved_partial",
    "Limage.C144_loaded_partial",
    "Limage.C144_refuted",
    "Limage.C144_flat_partial",
    "Limage.C144_grey_partial",
    "Limage.C144_indexed_partial"
   ],
   "note": "C144_saved_partial: pictures as they are loaded. C144_flat_partial: RGB pictures without groups and text, of any colours. C144_grey_partial, C144_indexed_partial: the same for grey and indexed pictures of opaque colours. C144_loaded_partial: pictures loaded from any RGB file, without text layers and mode Luminance. C144_refuted: grey files, with another file for each saving."
  },
  {
   "property": "C145",
   "status": "partial",
   "theorems": [
    "Limage.C145_pair_partial",
    "Limage.C145_picture_partial",
    "Limage.C145_refuted"
   ],
   "note": "C145_picture_partial: exact, for all modes that grow with both colours, but four. C145_refuted: Overlay, Soft Light, Burn and Hard Light, each with two greys."
  },
  {
   "property": "C146",
   "status": "partial",
   "theorems": [
    "Limage.C146_pair_partial",
    "Limage.C146_fades_partial",
    "Limage.C146_refuted",
    "Limage.C146_picture_partial"
   ],
   "note": "C146_picture_partial and C146_pair_partial: all modes but six. C146_refuted: each of the six."
  },
  {
   "property": "C147",
   "status": "partial",
   "theorems": [
    "Limage.C147_red_partial",
    "Limage.C147_refuted"
   ],
   "note": "C147_red_partial: red, any number of layers. C147_refuted: green and blue."
  },
  {
   "property": "C148",
   "status": "proved",
   "theorems": [
    "Limage.C148_names"
   ],
   "note": "C148_names: all pairs of numbers."
  },
  {
   "property": "C149",
   "status": "proved",
   "theorems": [
    "Limage.C149_flatten",
    "Limage.C149_exists",
    "Limage.C149_exchange"
   ],
   "note": "C149_flatten, with C149_exists for the existence of the copy and C149_exchange for two images that show the same."
  },
  {
   "property": "C150",
   "status": "proved",
   "theorems": [
    "Limage.C150_hsv",
    "Limage.C150_hsl",
    "Limage.C150_same",
    "Limage.C150_tint"
   ],
   "note": "C150_hsv, C150_hsl: all colours. C150_same: one hue. C150_tint: adding light keeps the hue."
  },
  {
   "property": "C151",
   "status": "proved",
   "theorems": [
    "Limage.C151_point",
    "Limage.C151_painted"
   ],
   "note": "C151_painted, by C151_point for any image of which one point changes."
  },
  {
   "property": "C152",
   "status": "proved",
   "theorems": [
    "Limage.C152_saturation",
    "Limage.C152_value",
    "Limage.C152_hue"
   ],
   "note": "C152_hue, C152_saturation, C152_value: all colours."
  },
  {
   "property": "C153",
   "status": "partial",
   "theorems": [
    "Limage.C153_color_partial",
    "Limage.C153_luminosity_partial",
    "Limage.C153_grey",
    "Limage.C153_refuted"
   ],
   "note": "False of the code: half of the chroma had to be subtracted from the lightness and a quarter is (lcolor/hsl.go:66), and channels wrap around; refuted by a red layer that turns a medium grey into a darker grey. Proved: greys exactly; and, for a lightness of at least a quarter and where no channel exceeds white, alpha, hue and chroma, and that the lightness is raised by a quarter of the chroma."
  },
  {
   "property": "C154",
   "status": "proved",
   "theorems": [
    "Limage.C154_decode",
    "Limage.C154_config",
    "Limage.C154_faultless"
   ],
   "note": "Every reading function is defined again over a source with a plan of failures (only the three operations that call the source differ) and related to the original; C154_faultless says that with no failures in the plan both are the same program. Failures may still lead to a panic or an error where there was a picture."
  },
  {
   "property": "C155",
   "status": "proved",
   "theorems": [
    "Limage.C155_config",
    "Limage.C155_terminates",
    "Limage.C155_returns",
    "Limage.C155_clean",
    "Limage.C155_sizes_needed"
   ],
   "note": "The conditions on files are those of C46 and C47 (where they are shown to be needed); C155_sizes_needed shows that a failing read alone can lead to the endless loop. Text descriptions that are cut by a failure and filled up with zeros are among those the condition on texts speaks of (Spec.TextIn); C155_clean gives that condition for the parser of text.go in terms of characters."
  },
  {
   "property": "C156",
   "status": "partial",
   "theorems": [
    "Limage.C156_merged",
    "Limage.C156_order_partial",
    "Limage.C156_rounded_partial",
    "Limage.C156_refuted"
   ],
   "note": "C156_merged gives the value exactly (and greys stay grey), C156_order_partial the freedom of order for opaque layers, C156_rounded_partial for Multiply and Screen with any opacity. C156_refuted: red and green Lighten Only layers over black give white or red, depending on their order."
  },
  {
   "property": "C157",
   "status": "proved",
   "theorems": [
    "Limage.C157_layer",
    "Limage.C157_layers",
    "Limage.C157_config",
    "Limage.C157_head"
   ],
   "note": "C157_config: DecodeConfig. C157_head: Decode and DecodeCompressed up to the pointers to the layers. C157_layers: the number of layers. C157_layer: what is read for one layer. The number of calls is a counter in the model of the source."
  },
  {
   "property": "C158",
   "status": "proved",
   "theorems": [
    "Limage.C158_shape",
    "Limage.C158_origin"
   ],
   "note": "C158_shape: pictures at any place. C158_origin: pictures that begin at the origin. That the points of the thumbnail are not those of the picture is C67_refuted."
  },
  {
   "property": "C159",
   "status": "proved",
   "theorems": [
    "Limage.C159_calls",
    "Limage.C159_file",
    "Limage.C159_bound"
   ],
   "note": "C159_calls: whatever the writer does. C159_file: successful calls hand over the file once. C159_bound: with the size of C106. Empty strings are written with an empty call, which the four bytes of their length pay for."
  },
  {
   "property": "C160",
   "status": "partial",
   "theorems": [
    "Limage.C160_odds_partial",
    "Limage.C160_refuted",
    "Limage.C160_picture_partial"
   ],
   "note": "C160_refuted: the stated share is wrong. C160_odds_partial: the share is the alpha of the bottom, the alpha of the layer is not used. C160_picture_partial: the same for pictures."
  },
  {
   "property": "C161",
   "status": "proved",
   "theorems": [
    "Limage.C161_mirrored",
    "Limage.C161_transposed",
    "Limage.C161_enlarged"
   ],
   "note": "C161_mirrored, C161_transposed, C161_enlarged: colours, random numbers, color model and bounds. Turns by right angles are combinations of the first two."
  },
  {
   "property": "C162",
   "status": "partial",
   "theorems": [
    "Limage.C162_lowest_partial",
    "Limage.C162_indexed_partial",
    "Limage.C162_normal_partial",
    "Limage.C162_refuted"
   ],
   "note": "C162_lowest_partial: true at every pixel where no layer below the group shows. C162_indexed_partial: true in indexed pictures over any layers if none of the group is in mode Dissolve. C162_normal_partial: in pictures of Normal layers true up to rounding. C162_refuted: composite() has no case for Pass-through, so the group is drawn as a Normal one; a grey Multiply layer in a pass-through group covers the grey below instead of darkening it."
  },
  {
   "property": "C163",
   "status": "partial",
   "theorems": [
    "Limage.C163_pieces_partial",
    "Limage.C163_cut_partial",
    "Limage.C163_plain_partial",
    "Limage.C163_refuted"
   ],
   "note": "C163_pieces_partial: true for any pieces that show what the layer shows. C163_cut_partial: true for pieces whose images are cut and moved along. C163_plain_partial: true as stated for layers of one colour. C163_refuted: SubImageLayer moves the bounds but not the image (see C28), so the second piece of a two pixel layer shows the first pixel."
  },
  {
   "property": "C164",
   "status": "partial",
   "theorems": [
    "Limage.C164_spread_partial",
    "Limage.C164_modes_refuted",
    "Limage.C164_refuted"
   ],
   "note": "C164_spread_partial: true for every mode of the group in which fully transparent pixels leave what is below, which are all but Dissolve, Saturation, Color, Value and Luminosity. C164_modes_refuted: false for each of these five; a group in mode Value, for example, turns what is below it black wherever none of its layers is (see C104)."
  },
  {
   "property": "C165",
   "status": "partial",
   "theorems": [
    "Limage.C165_larger_partial",
    "Limage.C165_modes_refuted",
    "Limage.C165_refuted"
   ],
   "note": "C165_larger_partial: true for every mode of the group but Dissolve, Saturation, Color, Value and Luminosity, with and without palettes. C165_modes_refuted: false for each of these five, in which a larger group changes more of what is below it (see C104)."
  },
  {
   "property": "C166",
   "status": "partial",
   "theorems": [
    "Limage.C166_masked",
    "Limage.C166_seen_partial",
    "Limage.C166_color_partial",
    "Limage.C166_modes_refuted",
    "Limage.C166_color_refuted",
    "Limage.C166_refuted"
   ],
   "note": "C166_seen_partial: true, with equality of all pixels, if the layer with the image is not in mode Dissolve, Saturation, Color, Value or Luminosity; C166_color_partial: in mode Color pixels that stay transparent can differ. C166_modes_refuted: false for each of the other four modes, which show what colour a transparent pixel has; C166_color_refuted: false for Color below Color."
  },
  {
   "property": "C167",
   "status": "partial",
   "theorems": [
    "Limage.C167_colours_partial",
    "Limage.C167_apart_partial",
    "Limage.C167_refuted"
   ],
   "note": "C167_apart_partial: true if the layers of each group are side by side. C167_colours_partial: true, and every pixel is opaque or invisible, if no pixel of a layer is partly transparent with opacity and mask and groups have transparency 0 or 255. C167_refuted: a file with half transparent red over blue shows a colour in between, because only pictures without alpha in the topmost layer are drawn without mixing (image.go:48)."
  },
  {
   "property": "C168",
   "status": "partial",
   "theorems": [
    "Limage.C168_opaque_partial",
    "Limage.C168_refuted",
    "Limage.C168_file"
   ],
   "note": "C168_opaque_partial: true if no layer in mode Color is seen above; C168_file: true without that condition for accepted grey and indexed files, whose layers are never in mode Color. C168_refuted: a layer in mode Color gives the picture its own alpha (composite.go:331-337), so that with a transparent one the picture is transparent."
  },
  {
   "property": "C169",
   "status": "proved",
   "theorems": [
    "Limage.C169_canvas"
   ],
   "note": "C169_canvas: true for every accepted file without conditions. Layers in a group are cut as well, but may be moved if the group begins outside the canvas (C89_group_refuted); what they draw is still only seen within the group's bounds, which are cut."
  }
 ]
}