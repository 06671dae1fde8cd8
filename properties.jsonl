{"id": "C01", "title": "Normal compositing of an opaque pixel shows that pixel", "statement": "Composite(Normal) of any bottom colour with a top colour whose alpha is full returns exactly the top colour; with a top colour whose alpha is zero over a bottom colour that is not fully transparent it returns exactly the bottom colour; two fully transparent colours give the zero colour.", "quantifier": "every pair of colours (all 2^128 pairs of 16-bit NRGBA values)", "why_tests_cant": "The domain is 2^128 pairs and the arithmetic is rounded fixed point; only a proof covers all roundings.", "anchors": ["composite.go:Composite.Composite", "composite.go:compositeNormal", "composite.go:blend"]}
{"id": "C02", "title": "Normal compositing: alpha is the union of coverages", "statement": "The alpha returned by Composite(Normal) is the exact ceiling of the union coverage a+b-ab (16-bit fixed point): never smaller than either input alpha, never above full, zero only when both inputs are fully transparent, full as soon as one input is, and it does not depend on which of the two colours is on top.", "quantifier": "every pair of colours", "why_tests_cant": "2^32 alpha pairs times every colour; monotonicity and commutativity are universally quantified.", "anchors": ["composite.go:compositeNormal"]}
{"id": "C03", "title": "Blended channels stay between the two input channels", "statement": "Every colour channel returned by Composite(Normal) lies between the two input channels, give or take one unit of rounding downwards, so compositing never overflows, wraps round, or invents a brighter or darker value.", "quantifier": "every pair of colours with at least one alpha non-zero", "why_tests_cant": "Needs a no-overflow argument over the whole 64-bit input space of one channel.", "anchors": ["composite.go:blend", "composite.go:compositeNormal"]}
{"id": "C04", "title": "Compositing never panics", "statement": "Composite returns a colour for every Composite value (including undefined ones), every bottom and top colour and every outcome of the random source: no division by zero is ever executed.", "quantifier": "every uint32 mode value, every pair of colours, every random draw", "why_tests_cant": "The zero divisors are isolated points of a 2^128 domain.", "anchors": ["composite.go:Composite.Composite", "composite.go:blend", "composite.go:compositeDivide", "composite.go:compositeDodge", "composite.go:compositeBurn", "lcolor/hsl.go:RGBToHSL", "lcolor/hsl.go:RGBToHSV"]}
{"id": "C05", "title": "Separable modes keep the bottom layer's coverage", "statement": "For each of the fifteen per-channel modes (Multiply, Screen, Overlay, Difference, Addition, Subtract, Darken Only, Lighten Only, Divide, Dodge, Burn, Hard Light, Soft Light, Grain Extract, Grain Merge) the returned alpha equals the bottom alpha, a fully transparent bottom gives the zero colour, and a fully transparent top returns the bottom colour unchanged.", "quantifier": "every pair of colours and each separable mode", "why_tests_cant": "Universally quantified over colours.", "anchors": ["composite.go:Composite.Composite"]}
{"id": "C06", "title": "Separable modes work channel by channel", "statement": "For each per-channel mode, each channel of the result is that mode's function of the same channel of bottom and top, mixed with the bottom channel by the smaller alpha: red depends only on red, green on green, blue on blue (and the alphas).", "quantifier": "every separable mode and every pair of colours", "why_tests_cant": "Universally quantified; a test with grey or single-channel samples cannot see a crossed channel.", "anchors": ["composite.go:Composite.Composite"]}
{"id": "C07", "title": "Per-channel blend functions compute their mathematical definition", "statement": "For opaque colours Multiply, Screen, Difference, Addition, Subtract, Darken Only, Lighten Only, Divide, Dodge and Grain Extract compute, for all values of the two channels that a channel of the result is computed of (that of the top, and the red one of the bottom, see C06), exactly the value of their formula over the rationals clamped to the channel range and rounded down (Screen: up), with no wrap-around.", "quantifier": "every pair of 16-bit channel values", "why_tests_cant": "2^32 input pairs per mode and 32-bit intermediate overflow at isolated points.", "anchors": ["composite.go:compositeMultiply", "composite.go:compositeScreen", "composite.go:compositeDifference", "composite.go:compositeAddition", "composite.go:compositeSubtract", "composite.go:compositeDarkenOnly", "composite.go:compositeLightenOnly", "composite.go:compositeDivide", "composite.go:compositeDodge", "composite.go:compositeGrainExtract"]}
{"id": "C08", "title": "Colour burn darkens", "statement": "Composite(Burn) never returns a channel brighter than the bottom channel and computes 1-(1-x)/y clamped below at zero.", "quantifier": "every pair of 16-bit channel values", "why_tests_cant": "The underflow happens on about half of a 2^32 domain but is invisible on the white/grey samples usually tested.", "anchors": ["composite.go:compositeBurn"]}
{"id": "C09", "title": "Hard light is Multiply below the midpoint and Screen above, without wrap-around", "statement": "Composite(Hard Light) equals Multiply with the doubled top channel below the midpoint and Screen with the doubled remainder above it, for every channel pair; in particular black under a mid-grey is not turned white.", "quantifier": "every pair of 16-bit channel values", "why_tests_cant": "The wrap-around is a single row of a 2^32 table.", "anchors": ["composite.go:compositeHardLight"]}
{"id": "C10", "title": "Overlay is monotone and bounded and fixes black and white", "statement": "Overlay and Soft Light keep black black and white white for every top channel, stay within the channel range, and never decrease when the bottom channel increases.", "quantifier": "every pair of 16-bit channel values", "why_tests_cant": "Needs a proof about nested roundings over 2^32 pairs.", "anchors": ["composite.go:compositeOverlay", "composite.go:compositeSoftLight"]}
{"id": "C11", "title": "Alpha compositing modes follow Porter-Duff coverage", "statement": "Destination In keeps the bottom only where the top is (alpha product), Destination Out keeps it only where the top is not, Source Atop and Destination Atop keep one operand's coverage.", "quantifier": "every pair of colours", "why_tests_cant": "Universally quantified over alphas.", "anchors": ["composite.go:compositeDstIn", "composite.go:compositeDstOut", "composite.go:compositeAtop", "composite.go:compositePlus"]}
{"id": "C12", "title": "Unimplemented or undefined modes behave as Normal", "statement": "For every mode number that is not one of the twenty-three modes with its own arithmetic, Composite gives exactly the result of Normal, and String gives a name without panicking for every mode value.", "quantifier": "all 2^32 mode values and every pair of colours", "why_tests_cant": "2^32 modes.", "anchors": ["composite.go:Composite.Composite", "composite.go:Composite.String"]}
{"id": "C13", "title": "Dissolve shows one of its two inputs", "statement": "Composite(Dissolve) returns either the bottom colour unchanged or the top colour made opaque, for every outcome of the random source; a fully transparent top pixel is never shown and an opaque top pixel always is.", "quantifier": "every pair of colours and every random draw", "why_tests_cant": "The random source cannot be enumerated by a test.", "anchors": ["composite.go:compositeDissolve"]}
{"id": "C14", "title": "HSV modes keep the bottom coverage", "statement": "Hue, Saturation and Value return a colour with the bottom colour's alpha; Color returns the top colour's and Luminosity the bottom colour's; Hue with a grey top returns the bottom unchanged.", "quantifier": "every pair of colours", "why_tests_cant": "Universally quantified.", "anchors": ["composite.go:compositeHue", "composite.go:compositeSaturation", "composite.go:compositeValue", "composite.go:compositeColor"]}
{"id": "C15", "title": "HSV conversion is faithful", "statement": "Converting any colour to HSV and back returns the same alpha and brightest channel exactly and every channel within 7 units out of 65535, so 8-bit colours survive the trip to within rounding.", "quantifier": "every 16-bit NRGBA colour", "why_tests_cant": "2^64 colours; the six hue sectors have rounding edges.", "anchors": ["lcolor/hsl.go:RGBToHSV", "lcolor/hsl.go:HSVA.ToNRGBA", "lcolor/hsl.go:colourToHue", "lcolor/hsl.go:hcmaToColour"]}
{"id": "C16", "title": "HSL conversion is faithful", "statement": "Converting any colour to HSL and back returns the same alpha and every channel to within rounding; greys are returned exactly.", "quantifier": "every 16-bit NRGBA colour", "why_tests_cant": "2^64 colours.", "anchors": ["lcolor/hsl.go:RGBToHSL", "lcolor/hsl.go:HSLA.ToNRGBA"]}
{"id": "C17", "title": "Colours are valid alpha-premultiplied values", "statement": "RGBA() of lcolor.RGB, lcolor.GrayAlpha, HSLA and HSVA returns components that are at most the returned alpha, which is at most 0xffff, and ToNRGBA agrees with RGBA up to rounding.", "quantifier": "every value of each colour type", "why_tests_cant": "Required of every value by image/color; 2^64 HSLA values.", "anchors": ["lcolor/gray.go:GrayAlpha.RGBA", "lcolor/rgb.go:RGB.RGBA", "lcolor/hsl.go:HSLA.RGBA", "lcolor/hsl.go:HSVA.RGBA"]}
{"id": "C18", "title": "Colour models are idempotent", "statement": "Converting with RGBModel or GrayAlphaModel a colour that is already of that model's type returns it unchanged, so that Set after At (and encoding a decoded image) does not alter pixels.", "quantifier": "every lcolor.RGB and every lcolor.GrayAlpha value", "why_tests_cant": "65536 GrayAlpha values, composed with every write path.", "anchors": ["lcolor/rgb.go:rgbColourModel", "lcolor/gray.go:grayAlphaColourModel"]}
{"id": "C19", "title": "AlphaPalette conversion finds the nearest entry and keeps alpha", "statement": "AlphaPalette.Index returns an in-range index whose entry has minimal distance to the colour among all entries (the first such), an entry at distance zero when the colour is in the palette, and Convert returns that entry's colour with the argument's alpha.", "quantifier": "every non-empty palette and every colour", "why_tests_cant": "Unbounded palettes.", "anchors": ["lcolor/indexed.go:AlphaPalette.Index", "lcolor/indexed.go:AlphaPalette.Convert"]}
{"id": "C20", "title": "Layer opacity and masks only remove coverage", "statement": "Applying an opacity or mask value to a colour returns the colour itself at 255, a fully transparent colour at 0, and otherwise the same colour channels with an alpha that is at most the original, scales with the opacity and is monotone in it.", "quantifier": "every colour and every opacity value", "why_tests_cant": "256 x 2^64 combinations.", "anchors": ["misc.go:transparency", "misc.go:MaskedImage.At", "layer.go:Layer.At"]}
{"id": "C21", "title": "A raster image is a map from points to pixels", "statement": "For RGB, GrayAlpha and PalettedAlpha images created by New*, after any sequence of Set operations a read at any point returns the last value set at that point, the zero pixel where nothing was set, and the zero pixel outside the bounds; writes outside the bounds change nothing; no operation panics.", "quantifier": "every rectangle, every sequence of writes, every point", "why_tests_cant": "Unbounded operation histories and image sizes.", "anchors": ["rgb.go", "grayalpha.go", "indexedalpha.go"]}
{"id": "C22", "title": "A sub-image shows and shares the original's pixels", "statement": "SubImage(r) of an RGB, GrayAlpha or PalettedAlpha image has bounds r intersected with the image's bounds, returns at every point in them the original's pixel, and a write through either one is visible through the other at that point and nowhere else, for any nesting of sub-images.", "quantifier": "every image, rectangle, nesting depth, write history and point", "why_tests_cant": "Aliasing over unbounded histories.", "anchors": ["rgb.go:RGB.SubImage", "grayalpha.go:GrayAlpha.SubImage", "indexedalpha.go:PalettedAlpha.SubImage"]}
{"id": "C23", "title": "Opaque tells whether every pixel is opaque", "statement": "Opaque() returns true exactly when every pixel within the image's bounds has full alpha.", "quantifier": "every image of each raster type, including sub-images, after any write history", "why_tests_cant": "Quantifies over all pixels of all images.", "anchors": ["rgb.go:RGB.Opaque", "grayalpha.go:GrayAlpha.Opaque", "indexedalpha.go:PalettedAlpha.Opaque"]}
{"id": "C24", "title": "Image bounds are the smallest rectangle holding all layers", "statement": "Bounds() of a layered image contains the bounds of every layer, is contained in every rectangle that does, and does not depend on layer order.", "quantifier": "every list of layers", "why_tests_cant": "Unbounded number of layers.", "anchors": ["image.go:Image.Bounds"]}
{"id": "C25", "title": "Hidden and non-covering layers do not affect a pixel", "statement": "At(x,y) of a layered image is unchanged when an invisible layer, or a layer whose bounds do not contain (x,y), is removed or inserted below the first position, and is the transparent default colour when every layer is such.", "quantifier": "every layered image (any nesting), point and random source", "why_tests_cant": "Unbounded layer lists.", "anchors": ["image.go:Image.At"]}
{"id": "C26", "title": "The topmost opaque Normal layer decides the pixel", "statement": "If the first visible layer covering a point is in Normal mode and its pixel there is fully opaque, At returns exactly that pixel's colour whatever lies beneath; earlier layers are drawn above later ones.", "quantifier": "every layered image, point and random source", "why_tests_cant": "Whatever lies beneath is unbounded.", "anchors": ["image.go:Image.At", "composite.go:compositeNormal"]}
{"id": "C27", "title": "A layer is its image moved to the layer's position", "statement": "At(x,y) of a layer is its image's pixel at (x,y) minus the layer's top-left corner, with the layer's opacity applied.", "quantifier": "every layer, nested to any depth, every point", "why_tests_cant": "Unbounded nesting.", "anchors": ["layer.go:Layer.At"]}
{"id": "C28", "title": "A sub-image of a layered image shows the same pixels", "statement": "SubImage(r) of a Layer or Image returns, at every point of r inside the original, the same colour as the original.", "quantifier": "every layered image, rectangle and point", "why_tests_cant": "Universally quantified over rectangles; tests with r starting at the layer's corner cannot see a shift.", "anchors": ["image.go:Image.SubImage", "layer.go:Layer.SubImageLayer"]}
{"id": "C29", "title": "RLE round-trip", "statement": "Reading back data written by the XCF run-length encoder returns exactly the data, consuming exactly the bytes written, whatever follows them in the file, for any data shorter than 65536 bytes (tiles are at most 4096).", "quantifier": "every byte string below 64 KiB and every trailing content", "why_tests_cant": "Unbounded byte strings; the opcode has five forms with boundaries at 3, 127, 128.", "anchors": ["xcf/rle.go:writer.WriteRLE", "xcf/rle.go:writer.WriteRLEData", "xcf/rle.go:rle.Read"]}
{"id": "C30", "title": "RLE output size is bounded", "statement": "The run-length encoding of n bytes takes at most n + n/132 + 3 bytes, at most n + 1 bytes if n is below 128, and for a non-empty input at least one and at most 2n bytes.", "quantifier": "every byte string", "why_tests_cant": "Worst case over all strings.", "anchors": ["xcf/rle.go:writer.WriteRLE"]}
{"id": "C31", "title": "The RLE reader is total and never overruns", "statement": "For every byte source and every buffer, the RLE reader terminates, never writes outside the buffer, and either fills the buffer completely with no pending run and no error, or reports an error.", "quantifier": "every source byte string and every buffer length", "why_tests_cant": "Adversarial inputs are unbounded.", "anchors": ["xcf/rle.go:rle.Read"]}
{"id": "C32", "title": "DecodeCompressed shows the same pixels as Decode", "statement": "Whenever the lazily decompressed image of a layer is accepted, the eager decoder also accepts it, and every At call within the bounds of the lazy image, in any order and with any repetitions, returns the colour of the eagerly decoded image at that point.", "quantifier": "every file content, every tile layout and every history of At calls", "why_tests_cant": "The tile cache makes results depend on the access history.", "anchors": ["xcf/compressed.go:compressedImage.decompressTile", "xcf/image_decode.go:decoder.readCompressedImage", "xcf/image_decode.go:decoder.readAndDecompressImage", "xcf/rle.go:decoder.readRLE"]}
{"id": "C33", "title": "DecodeCompressed accepts what Decode accepts", "statement": "A file that Decode reads without error is also read without error by DecodeCompressed.", "quantifier": "every file content", "why_tests_cant": "Universally quantified over files.", "anchors": ["xcf/rle.go:decoder.readRLE", "xcf/channel.go:decoder.ReadChannel"]}
{"id": "C34", "title": "Encode writes every byte of the file exactly once", "statement": "The WriteAt calls made by a successful XCF Encode cover the byte range [0, size) completely, without gaps and without writing any byte twice, so the result does not depend on the writer's initial contents or on the order in which writes reach the disk.", "quantifier": "every layered image whose rectangles are well-formed, with fewer than 2^32 layers and 2^32 tiles per layer", "why_tests_cant": "Unbounded layer trees; back-patched pointers.", "anchors": ["xcf/encoder.go:Encode", "xcf/writer.go:writer.ReservePointers", "xcf/writer.go:pointerWriter.WritePointer"]}
{"id": "C35", "title": "Encode reports every write failure", "statement": "XCF Encode returns nil if and only if every WriteAt call it made succeeded, and after a failed sequential write no further sequential write is attempted, whichever call fails and however many bytes it managed to write.", "quantifier": "every layered image and every failure pattern of the writer", "why_tests_cant": "Every crash point of an unbounded write history.", "anchors": ["xcf/writer.go", "xcf/encoder.go:Encode"]}
{"id": "C36", "title": "XCF pointers point at what they name", "statement": "In the file produced by Encode every layer pointer, hierarchy pointer, level pointer, tile pointer and mask pointer holds the offset at which that structure starts.", "quantifier": "every layered image", "why_tests_cant": "Unbounded layer trees.", "anchors": ["xcf/writer.go:pointerWriter.WritePointer", "xcf/layer_encode.go", "xcf/image_encode.go:encoder.WriteImage"]}
{"id": "C37", "title": "XCF round-trip of layer structure", "statement": "Decoding an encoded layered image returns the same tree of layers: same order, nesting, names, visibility, opacity, modes and bounds.", "quantifier": "every well-formed layered image of any size and nesting depth whose file fits the decoder's limit", "why_tests_cant": "Unbounded trees.", "anchors": ["xcf/encoder.go:Encode", "xcf/decoder.go:Decode", "xcf/layer_encode.go", "xcf/layer_decode.go"]}
{"id": "C38", "title": "XCF round-trip of pixels", "statement": "Decoding an encoded layered image returns, for every layer and every point of it, the pixel of the original layer converted to the file's colour type (exactly the pixel for 8-bit NRGBA and opaque images).", "quantifier": "every well-formed layered image, every layer and every point", "why_tests_cant": "Unbounded image sizes; tile boundaries at multiples of 64.", "anchors": ["xcf/image_encode.go:encoder.WriteImage", "xcf/image_decode.go:decoder.ReadImage"]}
{"id": "C39", "title": "XCF layer modes survive", "statement": "Every layer mode survives an XCF encode/decode round trip.", "quantifier": "every Composite value", "why_tests_cant": "The claim ranges over all modes and colour types.", "anchors": ["xcf/layer_encode.go:modeID", "xcf/layer_decode.go:layer.readMode"]}
{"id": "C40", "title": "Any image can be stored and read back as XCF", "statement": "Encoding any image.Image (not only a layered image) produces a file that Decode accepts, with one layer of the image's size.", "quantifier": "every image", "why_tests_cant": "Universally quantified over image sizes; the written layer size is independent of the image.", "anchors": ["xcf/encoder.go:Encode"]}
{"id": "C41", "title": "Layer masks survive", "statement": "A layer with a mask survives an XCF round trip whatever its position, under Decode and under DecodeCompressed.", "quantifier": "every masked layer and every offset", "why_tests_cant": "Universally quantified over offsets.", "anchors": ["xcf/layer_decode.go:layer.readMask", "xcf/channel.go:decoder.ReadChannel", "xcf/channel.go:encoder.WriteChannel"]}
{"id": "C42", "title": "Partially transparent grey and indexed pixels survive", "statement": "Encoding a GrayAlpha or PalettedAlpha image keeps the pixels that are partly transparent.", "quantifier": "every pixel value", "why_tests_cant": "65536 grey/alpha pairs and every palette.", "anchors": ["xcf/image_encode.go:encoder.grayAlphaToBuf", "xcf/image_encode.go:encoder.paletteAlphaToBuf", "lcolor/gray.go:grayAlphaColourModel"]}
{"id": "C43", "title": "DecodeConfig agrees with Decode and with Encode", "statement": "DecodeConfig of an encoded image returns the image's width, height, colour model and palette; for every file that Decode accepts it returns the canvas size, and for indexed files the palette, that Decode uses.", "quantifier": "every encoded image; every file of every supported version", "why_tests_cant": "Versions and property lists are unbounded.", "anchors": ["xcf/decoder.go:DecodeConfig", "xcf/decoder.go:readImageProperties"]}
{"id": "C44", "title": "Files larger than 16 MiB can be read", "statement": "A file written by Encode can be read back whatever its size.", "quantifier": "every layered image", "why_tests_cant": "Needs files larger than any test fixture.", "anchors": ["xcf/reader.go:newReader"]}
{"id": "C45", "title": "XCF header validation", "statement": "Decode and DecodeConfig fail on every input that does not start with the 14-byte XCF signature of a supported version, with the specific error, and never return an image for it.", "quantifier": "every byte string", "why_tests_cant": "All byte strings.", "anchors": ["xcf/decoder.go:readHeader"]}
{"id": "C46", "title": "Decode terminates", "statement": "Decode and DecodeCompressed return for every input.", "quantifier": "every byte string", "why_tests_cant": "Non-termination cannot be observed by a test, and inputs are unbounded.", "anchors": ["xcf/decoder.go", "xcf/layer_decode.go", "xcf/parasites.go", "xcf/skip.go"]}
{"id": "C47", "title": "Decode does not crash", "statement": "Decode and DecodeCompressed never panic (in particular not in the goroutines they start, where the caller cannot recover).", "quantifier": "every byte string", "why_tests_cant": "All byte strings; crash inputs are isolated.", "anchors": ["xcf/text.go:parseText", "xcf/channel.go:decoder.ReadChannel", "xcf/image_decode.go:decoder.readTiles"]}
{"id": "C48", "title": "Truncated input is an error", "statement": "If any read made while decoding hits the end of the input, Decode returns an error and no image.", "quantifier": "every byte string", "why_tests_cant": "Every truncation point of every file.", "anchors": ["xcf/decoder.go:decodeImage", "xcf/reader.go"]}
{"id": "C49", "title": "Properties are skipped by their stated length", "statement": "Reading the image property list moves past each property by exactly its stated length whatever its type, so unknown and uninteresting properties never desynchronise the reader.", "quantifier": "every property list", "why_tests_cant": "Unbounded property lists.", "anchors": ["xcf/decoder.go:readImageProperties", "xcf/skip.go"]}
{"id": "C50", "title": "Group reconstruction does not depend on map order", "statement": "The layer tree built from the decoded layers is the same for every iteration order of the group map.", "quantifier": "every list of decoded layers and every iteration order", "why_tests_cant": "Go randomises map iteration; a test sees a few orders.", "anchors": ["xcf/decoder.go:makeImage", "xcf/decoder.go:makeGroups"]}
{"id": "C51", "title": "Parallel layer decoding is deterministic", "statement": "Decoding layers in parallel gives, for every interleaving, the same layers as decoding them one after another; an error is reported exactly when some layer has one, and it is one of their errors.", "quantifier": "every schedule of the layer goroutines", "why_tests_cant": "All interleavings.", "anchors": ["xcf/decoder.go:readLayers"]}
{"id": "C52", "title": "Strings survive", "statement": "A layer name that is valid UTF-8 and shorter than 16 MiB is read back unchanged; anything that is not NUL-terminated valid UTF-8 is rejected.", "quantifier": "every byte string", "why_tests_cant": "All strings.", "anchors": ["xcf/writer.go:writer.WriteString", "xcf/reader.go:reader.ReadString"]}
{"id": "C53", "title": "Decoded pixels can be read", "statement": "At can be called at every point of an image returned by Decode without panicking.", "quantifier": "every accepted file and every point", "why_tests_cant": "Universally quantified over files.", "anchors": ["xcf/image_decode.go", "indexedalpha.go:PalettedAlpha.At", "xcf/compressed.go:CompressedPaletted.At"]}
{"id": "C54", "title": "Text layers survive", "statement": "The text, font, size and colour of a text layer are the same after an XCF round trip.", "quantifier": "every text layer", "why_tests_cant": "All strings.", "anchors": ["xcf/text.go", "xcf/parasites.go"]}
{"id": "C55", "title": "Encode accepts every text layer", "statement": "XCF Encode does not panic on a text layer, however many styled runs it has.", "quantifier": "every text layer", "why_tests_cant": "Number of runs is unbounded.", "anchors": ["xcf/text.go:encoder.WriteText"]}
{"id": "C56", "title": "Markup produces balanced tags", "statement": "The markup written for a styled text run opens and closes its elements in properly nested order.", "quantifier": "every text datum", "why_tests_cant": "2^many style combinations.", "anchors": ["xcf/text.go:writeTextMarkup"]}
{"id": "C57", "title": "Concurrent ReadAt over a seeker", "statement": "The ReaderAt built from an io.ReadSeeker returns the bytes at the requested offset for every interleaving of concurrent calls, whatever was read before.", "quantifier": "every content, every history and interleaving of ReadAt calls", "why_tests_cant": "All interleavings and histories.", "anchors": ["internal/bufioToReader.go:readerAt.ReadAt", "internal/bufioToReader.go:GetReaderAt"]}
{"id": "C58", "title": "A failed seek does not block later reads", "statement": "After a ReadAt call fails, later ReadAt calls still return.", "quantifier": "every failure pattern", "why_tests_cant": "Deadlock cannot be observed by a terminating test.", "anchors": ["internal/bufioToReader.go:readerAt.ReadAt"]}
{"id": "C59", "title": "ORA layer entries match the stack", "statement": "In the archive written by ora.Encode, the src of every layer element names an entry that was written, entry names are unique, and that entry holds that layer's image, for every nesting of groups.", "quantifier": "every layered image", "why_tests_cant": "Unbounded trees; two separate traversals must agree.", "anchors": ["ora/encode.go:writeLayers", "ora/encode.go:writeStack"]}
{"id": "C60", "title": "ORA layer attributes survive", "statement": "Name, position, visibility, opacity and mode of every layer are the same after an ORA encode/decode round trip.", "quantifier": "every layer", "why_tests_cant": "All attribute combinations.", "anchors": ["ora/encode.go:writeStack", "ora/stack.go:processLayerAttrs"]}
{"id": "C61", "title": "ORA round-trip of layer trees", "statement": "Decoding an encoded layered image returns the same tree of layers with the same bounds and images.", "quantifier": "every layered image, any nesting", "why_tests_cant": "Unbounded trees.", "anchors": ["ora/encode.go:Encode", "ora/decode.go:Decode", "ora/stack.go:decoder.readStack"]}
{"id": "C62", "title": "ORA modes survive", "statement": "Every layer mode survives an ORA round trip.", "quantifier": "every Composite value", "why_tests_cant": "All modes.", "anchors": ["ora/encode.go:writeStack", "ora/stack.go:processLayerAttrs"]}
{"id": "C63", "title": "Any image can be stored and read back as ORA", "statement": "ora.Encode of any image.Image produces an archive that ora.Decode accepts.", "quantifier": "every image", "why_tests_cant": "Universally quantified over image types.", "anchors": ["ora/encode.go:Encode", "ora/decode.go:Decode"]}
{"id": "C64", "title": "ORA decoding is total and skips foreign elements", "statement": "ora.Decode terminates on every token stream, and unknown elements, with everything inside them, do not affect the result.", "quantifier": "every token stream and every inserted foreign element", "why_tests_cant": "Unbounded nesting.", "anchors": ["ora/stack.go:decoder.readStack", "ora/stack.go:decoder.skipTag", "ora/decode.go:Decode"]}
{"id": "C65", "title": "Decoded ORA layers stay on the canvas", "statement": "Every top-level layer returned by ora.Decode lies within the canvas given by the image element's width and height. So do the bounds of the picture, and At returns a fully transparent colour at every point outside the canvas.", "quantifier": "every archive", "why_tests_cant": "All archives.", "anchors": ["ora/stack.go:decoder.readLayer"]}
{"id": "C66", "title": "ORA mimetype check", "statement": "ora.Decode and DecodeConfig reject an archive that contains a mimetype entry other than image/openraster, and one without stack.xml, with the specific error, wherever the entries are in the archive.", "quantifier": "every archive directory", "why_tests_cant": "All entry lists.", "anchors": ["ora/decode.go:decoder.getStack", "ora/decode.go:checkMime"]}
{"id": "C67", "title": "Thumbnails fit 256x256 and show the image", "statement": "The thumbnail written by ora.Encode is at most 256 pixels in each direction and its pixel (x,y) is taken from the image at the point scaled up by the same factor in both directions.", "quantifier": "every image size and point", "why_tests_cant": "All sizes.", "anchors": ["ora/thumbnail.go", "ora/encode.go:writeImage"]}
{"id": "C68", "title": "Grain Merge undoes Grain Extract", "statement": "Composite(Grain Merge) of two opaque colours computes bottom + top - mid grey (clamped), the inverse of Grain Extract.", "quantifier": "every pair of 16-bit channel values", "why_tests_cant": "2^32 channel pairs; clamping hides the sign on bright samples.", "anchors": ["composite.go:compositeGrainMerge", "composite.go:compositeGrainExtract"]}
{"id": "C69", "title": "Masked images scale alpha by the mask", "statement": "A masked image's pixel is the image's pixel with its alpha multiplied by the mask's value there and its colour unchanged; a full mask changes nothing, a zero mask and every point outside the mask give full transparency; reading panics only if reading the image does.", "quantifier": "every image, mask and point", "why_tests_cant": "All nested images and mask values.", "anchors": ["misc.go:MaskedImage.At", "misc.go:transparency"]}
{"id": "C70", "title": "Component modes take the named components", "statement": "Hue, Saturation, Value, Color and Luminosity return a colour with the named components of the top colour and the remaining components of the bottom; Value gives the result the brightness of the top, Hue and Saturation keep the brightness of the bottom; Hue with a grey top is the bottom.", "quantifier": "every pair of colours", "why_tests_cant": "2^128 colour pairs.", "anchors": ["composite.go:compositeHue", "composite.go:compositeSaturation", "composite.go:compositeValue", "composite.go:compositeColor", "lcolor/hsl.go"]}
{"id": "C71", "title": "Behind shows the bottom layer", "statement": "Composite(Behind) returns the bottom colour whatever the top is.", "quantifier": "every pair of colours", "why_tests_cant": "All colours.", "anchors": ["composite.go:Composite.Composite"]}
{"id": "C72", "title": "Colour conversion is faithful", "statement": "Converting any valid colour to non-premultiplied form and premultiplying it again returns its RGBA() value: alpha exactly, the other channels exactly or one unit less; byte channels are widened by exactly 257.", "quantifier": "every valid colour of every type, including types limage does not know", "why_tests_cant": "2^64 colours per type.", "anchors": ["internal/nrgba.go:ColourToNRGBA", "lcolor/rgb.go:RGB.ToNRGBA", "lcolor/gray.go:GrayAlpha.ToNRGBA", "lcolor/hsl.go"]}
{"id": "C73", "title": "A colour set in a raster image is read back", "statement": "After Set the pixel reads back as the colour's value in the image's colour model: RGB keeps each channel's high byte (exactly for RGB colours), GrayAlpha keeps grey value and alpha (exactly for opaque grey), PalettedAlpha gives the nearest palette entry with the colour's alpha.", "quantifier": "every valid colour and palette", "why_tests_cant": "All colours and palettes.", "anchors": ["rgb.go:RGB.Set", "grayalpha.go:GrayAlpha.Set", "indexedalpha.go:PalettedAlpha.Set", "indexedalpha.go:PalettedAlpha.At"]}
{"id": "C74", "title": "Encode does not crash", "statement": "xcf.Encode of an image in which no layer lacks its image or mask and every pixel can be read, and whose texts can be described (C55 says which can), returns, whatever the writer does; it returns nil if no write fails.", "quantifier": "every layered image without missing parts whose text layers can be described, and every writer", "why_tests_cant": "Unbounded layer trees and failure patterns.", "anchors": ["xcf/encoder.go:29-112", "xcf/layer_encode.go:9-202", "xcf/image_encode.go:10-68", "xcf/channel.go:53-65"]}
{"id": "C75", "title": "Text descriptions are read as written", "statement": "The parser of text layers reads every well-formed description - tags with words, quoted strings, numbers and nested tags - and returns exactly the names and values in it, up to the end of the data or a zero byte.", "quantifier": "every well-formed description, any nesting and length", "why_tests_cant": "Unbounded nesting and strings.", "anchors": ["xcf/parasites.go:parasite.Parse", "xcf/text.go:parseText"]}
{"id": "C76", "title": "Reading a text layer neither panics nor loops", "statement": "Parsing the description of a text layer terminates without a panic, whatever the bytes are.", "quantifier": "every byte string", "why_tests_cant": "All byte strings.", "anchors": ["xcf/parasites.go:parasite.Parse", "xcf/text.go:parseTextData"]}
{"id": "C77", "title": "Marked up text has the styles of its elements", "statement": "Reading marked up text yields one run for each piece of text, in order, with exactly the style given by the elements around it - the innermost, and of repeated attributes the last, counts - and fails exactly if a span has a number or colour that is not one.", "quantifier": "every tree of elements", "why_tests_cant": "Unbounded nesting.", "anchors": ["xcf/text.go:19-63", "xcf/text.go:118-182"]}
{"id": "C78", "title": "Short reads report an error", "statement": "A ReadAt call on the ReaderAt built from an io.ReadSeeker that returns fewer bytes than asked for returns a non-nil error, as io.ReaderAt requires.", "quantifier": "every seeker, history and interleaving of calls", "why_tests_cant": "Readers may return less than asked for at any time.", "anchors": ["internal/bufioToReader.go:readerAt.ReadAt"]}
{"id": "C79", "title": "ORA write failures are reported", "statement": "If a write to the archive fails, at any entry or when the archive is closed, ora.Encode returns an error.", "quantifier": "every layered image and every set of failing writes", "why_tests_cant": "Failure points are as many as there are entries.", "anchors": ["ora/encode.go:Encode", "ora/encode.go:writeImage"]}
{"id": "C80", "title": "Every image that is not empty can be stored as ORA", "statement": "ora.Encode of an image that is not empty, to a writer that does not fail, returns no error.", "quantifier": "every image size and every tree of layers", "why_tests_cant": "All sizes and aspect ratios.", "anchors": ["ora/encode.go:Encode", "ora/thumbnail.go:thumbnail.Bounds"]}
{"id": "C81", "title": "Pixels of indexed images are those of the topmost covering layer", "statement": "A pixel of a layered image with a palette, in which no Dissolve layer shows, is the colour of the topmost layer that covers more than half of it, made opaque, and transparent if no layer does; its coverage is all or nothing.", "quantifier": "every list of layers with a palette, every point", "why_tests_cant": "Unbounded numbers of layers and all transparencies.", "anchors": ["image.go:Image.At", "layer.go:Layer.At"]}
{"id": "C82", "title": "Images without Dissolve look the same every time", "statement": "Without a visible Dissolve layer the pixels of a layered image, and what Encode writes of it, do not depend on the random source nor on what was asked before.", "quantifier": "every tree of layers, every point and every random source", "why_tests_cant": "Tests see one sequence of random numbers.", "anchors": ["image.go:Image.At", "xcf/encoder.go:Encode"]}
{"id": "C83", "title": "Concurrent At calls on compressed images", "statement": "At of a compressed image, called from any number of goroutines at the same time, returns in each the colour it returns when called alone (image.Image values are used from several goroutines, and the eagerly decoded images allow it).", "quantifier": "every image that was read, every set of calls and every interleaving", "why_tests_cant": "Interleavings of memory accesses cannot be enumerated by tests.", "anchors": ["xcf/compressed.go:compressedImage.decompressTile", "xcf/compressed.go:14-19"]}
{"id": "C84", "title": "Layers on top never uncover what is below", "statement": "Putting a layer on top, in any mode, never lowers the coverage (alpha) of a pixel: composing any two colours gives at least the alpha of the lower one, and each pixel of an image is covered at least as much as that of the image without its upper layers.", "quantifier": "every mode number, pair of colours, random draw and list of layers", "why_tests_cant": "All modes, colours and stacks of layers.", "anchors": ["composite.go:Composite.Composite", "image.go:Image.At"]}
{"id": "C85", "title": "Saving again what was loaded changes nothing", "statement": "An image that was encoded and decoded can be encoded again, and decoding that gives the same tree of layers: order, nesting, names, bounds, modes, visibility, opacity, masks and pixels.", "quantifier": "every storable tree of layers, file contents and scheduling of both decodings", "why_tests_cant": "All trees, sizes and pixels; losses show only after the second round trip.", "anchors": ["xcf/encoder.go:Encode", "xcf/decoder.go:Decode", "xcf/image_encode.go:encoder.grayAlphaToBuf"]}
{"id": "C86", "title": "A picture looks the same after saving and loading", "statement": "After Encode and Decode, At of the loaded image returns at every point the colour At of the original returned there, whenever the file format can hold the colours of its layers exactly.", "quantifier": "every storable tree of layers with exactly storable colours, every point, random source, file contents and scheduling", "why_tests_cant": "All trees of layers with all modes, masks, offsets and opacities; each point is composed from many pixels.", "anchors": ["xcf/encoder.go:Encode", "xcf/decoder.go:Decode", "image.go:Image.At", "layer.go:Layer.At"]}
{"id": "C87", "title": "Pixels survive ORA files", "statement": "After ora.Encode and ora.Decode the image of every layer has its original size and, at every point, a colour whose RGBA() channels differ from the original's by at most 512 of 65535; opaque colours with 8 bits per channel are exactly kept.", "quantifier": "every tree of layers that can be written, every image type and pixel that the PNG encoder is given", "why_tests_cant": "All image types, sizes and pixel values; the format chosen by the PNG encoder depends on the ColorModel and Opaque methods of the image.", "anchors": ["ora/encode.go:writeLayers", "ora/stack.go:decoder.readLayer", "indexedalpha.go:PalettedAlpha.Opaque"]}
{"id": "C88", "title": "A picture looks the same after saving and loading as ORA", "statement": "After ora.Encode and ora.Decode, At of the loaded image returns at every point the colour At of the original returned there, whenever PNG files can hold the colours of its layers exactly.", "quantifier": "every tree of layers on its canvas whose colours PNG files hold exactly, every point and random source", "why_tests_cant": "All trees of layers with all modes and offsets; each point is composed from many pixels.", "anchors": ["ora/encode.go:Encode", "ora/decode.go:Decode", "image.go:Image.At", "layer.go:Layer.At"]}
{"id": "C89", "title": "Files of every version are read", "statement": "Decoding a file of any version (xcf file, v001 to v011, with 32 or 64 bit offsets) that holds a tree of layers returns that tree: order, nesting, names, bounds, modes, visibility, opacity, texts, masks and every pixel, whatever the order of the properties, the places of the parts in the file and the properties of unknown types.", "quantifier": "every file that holds a tree of layers in the documented format, every tree, base type, palette and scheduling", "why_tests_cant": "All layouts of all versions; test files come from few writers, which order the parts always in the same way.", "anchors": ["xcf/decoder.go:Decode", "xcf/layer_decode.go:decoder.ReadLayer", "xcf/image_decode.go:decoder.ReadImage", "xcf/skip.go"]}
{"id": "C90", "title": "Uncompressed files are read", "statement": "Decoding a file whose pixels are not compressed returns the layers it holds, with every pixel: the format has the channels of each pixel next to each other.", "quantifier": "every uncompressed file that holds a tree of layers in the documented format, every version, tree, base type and palette", "why_tests_cant": "All files; current GIMP versions write compressed files only, so samples are rare.", "anchors": ["xcf/image_decode.go:decoder.readAndDecompressImage", "xcf/image_decode.go:146-190"]}
{"id": "C91", "title": "What is accepted is consistent", "statement": "In every image that Decode or DecodeCompressed returns, at any depth, the pixels of a layer start at the origin and cover the layer's bounds, all images have the colour model of the file's base type and one palette, masks are as large as the pixels they belong to, layers of grey and indexed files have the modes Normal or Behind, only the last layer of a group is without alpha, and the bottom layer of the image is drawn in mode Normal or Dissolve.", "quantifier": "every sequence of bytes, well-formed or not, that is accepted; every scheduling", "why_tests_cant": "All files that are accepted, including damaged and hostile ones; tests look at files written by programs that follow the format.", "anchors": ["xcf/decoder.go:decoder.makeGroups", "xcf/decoder.go:makeImage", "xcf/layer_decode.go:decoder.ReadLayer", "xcf/layer_decode.go:layer.readMask", "xcf/image_decode.go:decoder.ReadImage"]}
{"id": "C92", "title": "The markup of a run carries its style", "statement": "The markup written for a run of text consists of elements around the text that, read back by this package, give the text exactly the style of the run: font, size, spacing, rise, bold, italic, underline, strikethrough, foreground and background.", "quantifier": "every run: all fonts, sizes, flags, colours and texts; every default style around it", "why_tests_cant": "All combinations of ten attributes with their full ranges of values; a test writes a few styles.", "anchors": ["xcf/text.go:writeTextMarkup", "xcf/text.go:processText"]}
{"id": "C93", "title": "Putting the lowest layers into a group does not change the picture", "statement": "When the lowest layers of a picture are put into a fully opaque group in mode Normal that covers them, At returns the same colour as before at every point (any two fully transparent colours count as the same).", "quantifier": "every picture, every number of lowest layers, every place and size of the group that covers them, every point and random source", "why_tests_cant": "All trees of layers with all modes; composing a group first and the rest after must agree with composing one after the other for all pixel values.", "anchors": ["image.go:Image.At", "layer.go:Layer.At", "composite.go:Composite"]}
{"id": "C94", "title": "image.Decode decodes the XCF picture a reader is at", "statement": "With the package registered, image.Decode and image.DecodeConfig return for any reader what xcf.Decode and xcf.DecodeConfig return for the bytes still to be read, if these start with the signature of XCF files, and image.ErrFormat otherwise; so all files that Decode accepts and all files that Encode has written are recognised.", "quantifier": "every reader (ReaderAt, Seeker, bufio.Reader around one, plain), every content and position of the reader", "why_tests_cant": "All kinds of readers with all contents; tests open files at their start.", "anchors": ["xcf/decoder.go:decode", "xcf/decoder.go:decodeConfig", "xcf/decoder.go:init", "internal/bufioToReader.go:GetReaderAt"]}
{"id": "C95", "title": "The size and the merged image in an ORA file are those of the picture", "statement": "For every file that ora.Encode has written, ora.DecodeConfig returns the width and height of the image, and mergedimage.png shows at every point what the picture shows there, as far as a PNG file can hold it.", "quantifier": "every image and every layered picture, every point", "why_tests_cant": "All pictures with all modes; the format of the PNG file depends on the colour model and the pixels of the whole picture.", "anchors": ["ora/encode.go:Encode", "ora/encode.go:writeImage", "ora/decode.go:DecodeConfig", "image.go:Image.ColorModel"]}
{"id": "C96", "title": "Only Dissolve layers make a picture random", "statement": "A call of At takes exactly one value from the random source for every visible layer in mode Dissolve that contains the point, at any depth, and depends on nothing else of the source; pictures without such layers always show the same.", "quantifier": "every tree of layers, masks and texts, every point, any two random sources in any states", "why_tests_cant": "All trees and random sources; a test cannot see that a value was drawn and not used.", "anchors": ["image.go:Image.At", "composite.go:compositeDissolve", "layer.go:Layer.At", "misc.go:MaskedImage.At"]}
{"id": "C97", "title": "Pictures return proper colours", "statement": "Every colour that At of a layered picture returns has channels that are at most its alpha, and an alpha of at most 65535, as color.Color requires, whatever colours its layers return; layers and masked images return proper colours if their images do.", "quantifier": "every tree of layers, all modes, every point, every colour of the layers, proper or not", "why_tests_cant": "All colours in all modes, including those of foreign colour types that break the rules.", "anchors": ["image.go:Image.At", "composite.go:Composite", "layer.go:Layer.At", "misc.go:transparency"]}
{"id": "C98", "title": "Paths are read as they are stored", "statement": "For every list of old-style paths in the format of the file, ReadPaths returns the active path and every path with its name, flags, tattoo and points and leaves the reader behind them, where SkipPaths leaves it too; a state that contradicts the closed flag is refused. ReadVectors does the same for the paths of later versions.", "quantifier": "every list of paths of versions 1 to 3 with any number of points and any bits as coordinates, every reader that is at them, every list of vectors", "why_tests_cant": "All lists of paths with all versions; no other function calls these two, so that no test reaches them by decoding.", "anchors": ["xcf/paths.go:ReadPaths", "xcf/vectors.go:ReadVectors", "xcf/skip.go:SkipPaths"]}
{"id": "C99", "title": "The string of a text layer is its text", "statement": "TextData.String of every text layer that is decoded is the text of its description, or, where the description has none, the characters of its markup without the tags, whatever their styles are and however they are cut into runs; after an XCF round trip of a text of one run it is the same if and only if the text consists of printable characters.", "quantifier": "every description of text, every list of XML tokens, every list of runs", "why_tests_cant": "All descriptions with all orders of tags and all trees of markup.", "anchors": ["misc.go:TextData.String", "xcf/text.go:parseTextData", "xcf/text.go:parseText"]}
{"id": "C100", "title": "OpenRaster files of any program are read as the picture they describe", "statement": "For every archive whose stack.xml describes layers and stacks by the attributes of OpenRaster (in any order, with unknown ones among them or with some left out, and with foreign elements, text and comments between them), ora.Decode returns the layers described: name, place, mode, visibility, opacity and the image of the first entry named by src, with foreign elements ignored; DecodeConfig returns the size said; and at each point of the canvas the picture shows what the images show where the document puts them.", "quantifier": "every archive, every document tree, every list of attributes, every point of the canvas", "why_tests_cant": "All orders and sets of attributes, all trees, all positions; a test uses a few files of one program.", "anchors": ["ora/stack.go:readStack", "ora/stack.go:readLayer", "ora/stack.go:processLayerAttrs", "ora/decode.go:Decode", "ora/decode.go:getDimensions"]}
{"id": "C101", "title": "Moving all layers moves the picture", "statement": "If all layers of an Image are moved by the same vector, At at each point moved by the vector returns what it returned at the point before, with the same random numbers drawn; ColorModel is unchanged; and Bounds moves by the vector if it is not empty, and holds exactly the moved points.", "quantifier": "every list of layers (nested groups, text, masks), every vector, every point, every random source", "why_tests_cant": "All trees of layers and all vectors, including negative ones.", "anchors": ["image.go:Image.At", "image.go:Image.Bounds", "image.go:Image.ColorModel", "layer.go:Layer.At"]}
{"id": "C102", "title": "The order of layers that do not overlap does not matter", "statement": "Exchanging neighbouring layers that have no point in common, any number of times, changes no pixel of an Image.", "quantifier": "every list of layers, every sequence of exchanges, every point, every random source", "why_tests_cant": "All trees of layers and all permutations of the layers that do not overlap.", "anchors": ["image.go:Image.At", "image.go:Image.ColorModel"]}
{"id": "C103", "title": "Normal layers mix light as the Porter-Duff over operator says", "statement": "For Normal compositing of two colours, the light of the result (each channel times the alpha, over the rationals) is within 6/65535 of that of the over operator and the alpha is the exact one rounded up; for any number n of Normal layers shown at a point, Image.At is within (4n+1)/65535 of flattening them from the bottom.", "quantifier": "all pairs of colours, all lists of Normal layers of any length (pictures without a palette), every point", "why_tests_cant": "All pairs of 64-bit colours and all stacks; rounding errors of 16-bit integer arithmetic add up over the layers.", "anchors": ["composite.go:compositeNormal", "composite.go:blend", "image.go:Image.At"]}
{"id": "C104", "title": "Where a layer is fully transparent it does not show", "statement": "At a point at which the pixel of a layer is fully transparent, and for a layer of opacity zero everywhere, an Image looks as if the layer were hidden: the same outcome, and the same color unless fully transparent.", "quantifier": "every list of layers above and below, every mode, every point, every random source, pictures with and without a palette", "why_tests_cant": "All modes with all colours below and all layers above.", "anchors": ["image.go:Image.At", "composite.go:Composite", "layer.go:Layer.At"]}
{"id": "C105", "title": "Neutral colours, symmetric modes and layers put on themselves", "statement": "An opaque layer of the neutral grey of its mode (white for Multiply, Darken Only, Divide and Burn, black for Screen, Difference, Addition, Subtract, Lighten Only and Dodge, half grey for Grain Extract) leaves every opaque colour below; in the modes Multiply, Screen, Difference, Addition, Darken Only and Lighten Only opaque colours can be exchanged; a grey put on itself stays in Darken Only and Lighten Only and becomes black in Difference and Subtract.", "quantifier": "all colours, all values of grey, all these modes", "why_tests_cant": "All 16-bit values of each channel.", "anchors": ["composite.go:Composite", "composite.go:compositeMultiply", "composite.go:compositeBurn"]}
{"id": "C106", "title": "XCF files are no larger than their picture needs", "statement": "Every byte that Encode writes lies below 80 plus 3 for each colour of the palette plus, for each layer, 160 plus the length of its name, 4 for each level of nesting, the length of its text, and for its pixels and its mask 32 plus 4 + 4130 per channel for each tile of 64 by 64.", "quantifier": "every picture with representable sizes, every writer that reports no error", "why_tests_cant": "All pictures; the bound covers pixels that cannot be compressed.", "anchors": ["xcf/encoder.go:Encode", "xcf/image_encode.go:WriteImage", "xcf/rle.go:writer.WriteRLE"]}
{"id": "C107", "title": "Different pictures have different XCF files", "statement": "If two pictures differ at some point, the files that Encode writes for them differ, whatever was in the files before.", "quantifier": "all pairs of pictures, all points, all earlier contents", "why_tests_cant": "All pairs of pictures.", "anchors": ["xcf/encoder.go:Encode", "xcf/decoder.go:decodeImage"]}
{"id": "C108", "title": "Nested Normal pictures show what exact arithmetic would", "statement": "At every point of a picture of Normal layers - nested groups, text layers, masks, any opacities - the colour is, as premultiplied light, that of the over operator in exact arithmetic, up to (5 + 2 x levels of groups) units of 1/65535 for every image, mask and layer in it plus one, and the coverage up to 2 units for each. Putting consecutive layers anywhere into a group that is large enough changes nothing in exact arithmetic, and no more than the sum of both bounds in the picture. No random numbers are drawn.", "quantifier": "all pictures of Normal layers without palettes, all depths of nesting, all points", "why_tests_cant": "A bound on accumulated rounding for all trees of layers; tests see a few trees.", "anchors": ["image.go:Image.At", "layer.go:Layer.At", "misc.go:transparency", "misc.go:MaskedImage.At", "composite.go:Composite.Composite"]}
{"id": "C109", "title": "Saving and loading changes pictures of Normal layers only by the rounding to 8 bits", "statement": "A picture of Normal layers - nested, with masks and opacities, of any colours - shows after Encode and Decode at every point the same light, up to 518 + 516 per level of groups for each image, mask and layer in it plus 2, and the coverage up to 516 for each, in units of 1/65535.", "quantifier": "all pictures of Normal layers that can be saved, all points, all schedules of the decoder", "why_tests_cant": "Rounding errors of all colours in all trees of layers.", "anchors": ["xcf/encoder.go:Encode", "xcf/decoder.go:decodeImage", "image.go:Image.At"]}
{"id": "C110", "title": "Saving and loading as OpenRaster changes pictures of Normal layers only by the rounding of PNG", "statement": "A picture of Normal layers - nested, with masks, of any colours - shows after ora.Encode and ora.Decode at every point the same light, up to 524 + 516 per level of groups for each image, mask and layer in it plus 2, and the coverage up to 516 for each, in units of 1/65535.", "quantifier": "all pictures of Normal layers that can be saved, all points, all behaviours of the PNG library within its contract", "why_tests_cant": "Rounding errors of all colours in all trees of layers.", "anchors": ["ora/encode.go:Encode", "ora/decode.go:Decode", "image.go:Image.At"]}
{"id": "C111", "title": "How many layers and pixels a file can hold", "statement": "Whatever Decode or DecodeCompressed accept has fewer layers, nested ones included, than a quarter of the bytes of the file, and no layer and no mask has more than 1024 pixels for every byte of the file. All layers together are not bounded in that way.", "quantifier": "all files that are accepted, both decoders, all schedules", "why_tests_cant": "All files, among them those made to be small and to unpack to as much as possible.", "anchors": ["xcf/decoder.go:decodeImage", "xcf/decoder.go:decoder.readLayerPointers", "xcf/image_decode.go:decoder.readTiles"]}
{"id": "C112", "title": "Saving again as OpenRaster what was loaded from OpenRaster changes nothing", "statement": "A picture loaded by ora.Decode from a file that ora.Encode wrote is, after saving and loading it once more, the same: every name, position, mode, visibility and pixel, and the colour at every point.", "quantifier": "all pictures that can be saved, all points, all behaviours of the PNG and XML libraries within their contracts", "why_tests_cant": "All trees of layers, names and pixels, through two files.", "anchors": ["ora/encode.go:Encode", "ora/decode.go:Decode", "image.go:Image.Bounds"]}
{"id": "C113", "title": "Encode writes nothing of pixels outside images and layers", "statement": "xcf.Encode makes the same writes and reports the same result for two pictures that differ at most in pixels outside the bounds of their images and, where layers are drawn (in groups and under masks), outside the visible layers; likewise for mask pixels outside the mask.", "quantifier": "all trees of layers, all pixels, all behaviours of the destination, all random numbers drawn", "why_tests_cant": "That no write depends on a pixel outside is about pairs of all pictures.", "anchors": ["xcf/encoder.go:Encode", "xcf/layer_encode.go:WriteLayer", "xcf/image_encode.go:WriteImage", "xcf/channel.go:WriteChannel", "image.go:Image.At"]}
{"id": "C114", "title": "What SubImage cuts away is not saved", "statement": "After a part has been cut out of a picture with SubImage, what Encode writes does not depend on the rest of the picture.", "quantifier": "all raster images built by any program, all layered images, all rectangles, all pixels", "why_tests_cant": "That nothing cut away gets into a file is about pairs of all pictures.", "anchors": ["rgb.go:RGB.SubImage", "grayalpha.go:GrayAlpha.SubImage", "indexedalpha.go:PalettedAlpha.SubImage", "image.go:Image.SubImage", "layer.go:Layer.SubImageLayer", "xcf/encoder.go:Encode"]}
{"id": "C115", "title": "Decompressing or not makes no difference", "statement": "A file that xcf.DecodeCompressed accepts is accepted by xcf.Decode; the two pictures have the same bounds, colour model and colours at every point, and xcf.Encode makes the same writes for both.", "quantifier": "all files, all orders in which layers and groups are worked on, all points, all behaviours of the destination of Encode", "why_tests_cant": "Two decoders agree on all files, whatever layers, groups, palettes, tiles and runs they hold.", "anchors": ["xcf/decoder.go:Decode", "xcf/decoder.go:DecodeCompressed", "xcf/image_decode.go:ReadImage", "xcf/compressed.go:CompressedRGB.At", "xcf/layer_decode.go:ReadLayer", "image.go:Image.At", "xcf/encoder.go:Encode"]}
{"id": "C116", "title": "Min, Max and Mid", "statement": "internal.Min and Max give the smallest and the largest of their arguments; Mid gives the number half-way between the two, which lies between them.", "quantifier": "all lists of 16-bit numbers", "why_tests_cant": "All lists of all lengths; the overflow of Mid shows only for large numbers.", "anchors": ["internal/minmax.go:Min", "internal/minmax.go:Max", "internal/minmax.go:Mid"]}
{"id": "C117", "title": "A sub-image of a sub-image is that of the common part", "statement": "SubImage(r) followed by SubImage(s) gives the same image as SubImage of the intersection of r and s, and so does the other order; for the raster images it is the same view of the same pixels.", "quantifier": "all raster images and layered images, all pairs of rectangles", "why_tests_cant": "All pairs of rectangles, empty or not, inside, outside or overlapping.", "anchors": ["rgb.go:RGB.SubImage", "grayalpha.go:GrayAlpha.SubImage", "indexedalpha.go:PalettedAlpha.SubImage", "image.go:Image.SubImage", "layer.go:Layer.SubImageLayer"]}
{"id": "C118", "title": "An OpenRaster picture can be saved as XCF", "statement": "A picture that ora.Decode returns can be saved with xcf.Encode and loaded again: the same tree of layers, with the same names, bounds, modes, visibility and opacity comes back from the XCF file, and the picture looks the same if its colours have 8 bits.", "quantifier": "all archives, all trees of layers on the canvas, all schedules, both XCF decoders", "why_tests_cant": "All trees, names, modes and images; six of the modes that OpenRaster has get lost without an error.", "anchors": ["ora/decode.go:Decode", "ora/stack.go:readStack", "ora/stack.go:processLayerAttrs", "xcf/encoder.go:Encode", "xcf/decoder.go:decode"]}
{"id": "C119", "title": "Pixels of loaded XCF files have 8 bits per channel, of the kind the base type says", "statement": "Whatever file Decode or DecodeCompressed accepts, in every layer at any depth a pixel inside the image that can be read is an RGB or NRGBA colour in an RGB file, a grey with or without alpha in a grey file, and a colour of the palette of the file, with any alpha, in an indexed file; the colour model of the image is the one that belongs to it, and there is one palette for all layers.", "quantifier": "all files, all schedules, both decoders, all layers, all points", "why_tests_cant": "Files with any content, including damaged ones that are accepted: layers of any type, tiles, palettes and compression.", "anchors": ["xcf/image_decode.go:ReadImage", "xcf/image_decode.go:ReadColour", "xcf/compressed.go:At", "xcf/decoder.go:decodeImage", "xcf/layer_decode.go:ReadLayer"]}
{"id": "C120", "title": "An XCF picture can be saved as OpenRaster", "statement": "A picture that xcf.Decode or xcf.DecodeCompressed returns can be saved with ora.Encode, and what ora.Decode loads from there looks the same at every point.", "quantifier": "all XCF files, all schedules, both decoders, all points, all states of the random source", "why_tests_cant": "All files and all trees of layers; opacities of layers and modes are lost without an error.", "anchors": ["xcf/decoder.go:decodeImage", "xcf/image_decode.go:ReadImage", "ora/encode.go:Encode", "ora/decode.go:Decode"]}
{"id": "C121", "title": "ora.Decode needs stack.xml exactly up to the end of the first stack", "statement": "For every archive that ora.Decode reads there is a point in the token stream of stack.xml before which everything is needed and after which nothing is: whatever follows that point, well formed or not, the same picture is returned, and if the stream breaks off earlier, Decode returns an error, the error of the XML decoder if there is one. DecodeConfig needs at most that part as well.", "quantifier": "every archive that can be read, every way of continuing or breaking off the XML", "why_tests_cant": "Every position of a cut and every continuation.", "anchors": ["ora/decode.go:Decode", "ora/decode.go:decoder.getDimensions", "ora/decode.go:DecodeConfig", "ora/stack.go:decoder.readStack", "ora/stack.go:decoder.skipTag"]}
{"id": "C122", "title": "Previews in OpenRaster files", "statement": "mergedimage.png of a file written of a single layer shows the image of the layer, with the transparency of the layer applied to its alpha; thumbnail.png is the same as mergedimage.png if this is at most 256 points wide and high, and otherwise shows the picture scaled down.", "quantifier": "every layer and picture, all libraries for PNG files", "why_tests_cant": "All sizes, offsets and transparencies.", "anchors": ["ora/encode.go:Encode", "ora/thumbnail.go:thumbnail.At", "ora/thumbnail.go:thumbnail.Bounds", "layer.go:Layer.At"]}
{"id": "C123", "title": "OpenRaster files after an error", "statement": "When ora.Encode has returned, with an error or without, the archive it left behind (with a writer that works) is never taken for another picture: if the image of a layer could not be stored, Decode and DecodeConfig refuse it because the stack is missing; if only a preview could not be stored, Decode reads the whole picture.", "quantifier": "every layered picture, all libraries for XML and PNG files, whatever was written of the entry that failed", "why_tests_cant": "Errors at every layer and preview, with every content of the entry that was cut off.", "anchors": ["ora/encode.go:Encode", "ora/encode.go:writeLayers", "ora/encode.go:writeImage", "ora/decode.go:getStack", "ora/decode.go:Decode"]}
{"id": "C124", "title": "XCF files loaded, saved and loaded again", "statement": "A picture loaded from an RGB XCF file can be saved again, and the file that is saved is loaded as the same tree of layers, showing the same colours everywhere; the names of all loaded layers are valid UTF-8 and their modes are those of the format. (It fails for layers with mode Luminance, which is read but not written.)", "quantifier": "every file that Decode accepts with an RGB base type, all layers that lie on the canvas and were not cut off", "why_tests_cant": "All files with all trees of layers, and all schedules of both decodings.", "anchors": ["xcf/decoder.go:Decode", "xcf/encoder.go:Encode", "xcf/layer_decode.go:ReadLayer", "xcf/layer_encode.go:WriteLayer"]}
{"id": "C125", "title": "Background colours in text markup", "statement": "The value of the background attribute written for a run of text is a colour in hexadecimal notation ('#' and three numbers of equally many digits) and is the background of the run. (It fails for colours such as red, for which #FFFF0000 is written, since the 16-bit values are written without leading zeros beyond two digits.)", "quantifier": "every run of text with a plain font name, every background colour", "why_tests_cant": "All values of the three 16-bit channels.", "anchors": ["xcf/text.go:writeTextMarkup"]}
{"id": "C126", "title": "A layer in a group of its own looks the same", "statement": "Putting one layer of a picture, whose image is not indexed, into a group of its own - the group taking over the layer's name, place, mode, opacity and visibility, the layer inside being opaque, visible, in mode Normal and at the group's origin - changes no pixel of the picture: At returns the very same colour at every point, whatever layers are above and below.", "quantifier": "for all layers (any mode, opacity, place, image that is not indexed), all lists of layers above and below, all points, all values of the random source", "why_tests_cant": "Depends on arithmetic being exact when drawing onto nothing for every colour, opacity and mode; a test tries a few colours, and the modes that fail do so only where the layer is fully transparent but not black.", "anchors": ["image.go:33-60", "layer.go:24-26", "misc.go:51-64", "composite.go"]}
{"id": "C127", "title": "What of an OpenRaster archive is used", "statement": "ora.Decode and ora.DecodeConfig look at nothing in an archive but the entries mimetype, stack.xml and those that layer elements of stack.xml name as their source: other entries may be added, removed, moved or damaged without any effect on what is returned, errors included. Every layer that Decode returns, at whatever depth, has one of the modes of OpenRaster and is a group or shows the picture in the first entry with the name it was asked by, and there are fewer layers than layer and stack elements in stack.xml.", "quantifier": "every archive, all libraries for XML and images", "why_tests_cant": "All sets of other entries at all positions, all trees of layers; a test has a few archives.", "anchors": ["ora/decode.go:getStack", "ora/decode.go:Decode", "ora/decode.go:DecodeConfig", "ora/stack.go:decoder.readStack", "ora/stack.go:decoder.readLayer"]}
{"id": "C128", "title": "ora.DecodeConfig tells the truth about the picture", "statement": "For every archive that ora.Decode reads, ora.DecodeConfig returns without an error the colour model and the size of the picture that Decode returns; where DecodeConfig returns an error, Decode returns the same one. (The size is that of a canvas that holds the picture, which may be larger or even negative, and the colour model is always NRGBA.)", "quantifier": "every archive, all libraries for XML and images", "why_tests_cant": "All archives, with layers of all sizes and colour models at all places.", "anchors": ["ora/decode.go:DecodeConfig", "ora/decode.go:decoder.getDimensions", "ora/decode.go:Decode", "ora/stack.go:decoder.readLayer"]}
{"id": "C129", "title": "Coverage depends on coverage alone and grows with it", "statement": "If two pictures are the same tree of layers - same places, modes and visibility - and every pixel of every image, every mask and the opacity of every layer covers in the second at least as much as in the first, then so does every pixel of the whole picture, in all modes and whatever the colours are, and as many random numbers are drawn. Hence raising the opacity of a layer never uncovers a pixel, and changing colours without changing their alpha does not change the alpha of any pixel of the picture.", "quantifier": "for all pictures of all layers, nested at any depth, all modes, points and values of the random source", "why_tests_cant": "All colours, alphas, modes and trees of layers, and all random numbers.", "anchors": ["composite.go:Composite.Composite", "image.go:Image.At", "layer.go:Layer.At", "misc.go:transparency", "misc.go:MaskedImage.At"]}
{"id": "C130", "title": "Pictures of grey layers are grey", "statement": "If all pixels of all images in a picture are grey - whatever their alpha -, then every pixel of the picture is grey: the red, green and blue values of the colour that At returns are the same, in all modes, with masks, opacities and groups. So is every pixel of a picture loaded from a grey file.", "quantifier": "for all pictures, nested at any depth, all modes and all grey files that are accepted, all points and values of the random source", "why_tests_cant": "All colours, alphas and modes, the conversions to HSV and HSL included.", "anchors": ["composite.go:Composite.Composite", "image.go:Image.At", "lcolor/hsl.go:RGBToHSL", "lcolor/hsl.go:RGBToHSV", "misc.go:transparency"]}
{"id": "C131", "title": "Channels do not mix", "statement": "In pictures whose layers have no modes that work on hues, each channel of a pixel depends only on that channel and the alpha of the images, and all channels are treated alike: exchanging, copying or changing channels in all images does the same to the picture. (It fails in the separable modes, such as Multiply, where green and blue depend on the red below.)", "quantifier": "for all pictures, nested at any depth, all points and values of the random source", "why_tests_cant": "All colours in all channels and all trees of layers.", "anchors": ["composite.go:Composite.Composite", "image.go:Image.At", "misc.go:transparency"]}
{"id": "C132", "title": "OpenRaster files hold nothing from outside the picture", "statement": "ora.Encode writes the same archive, or returns the same error, for two pictures that differ at most in pixels outside the bounds of their images and outside their visible layers, given that png.Encode looks only at pixels inside the bounds. (It fails for pictures not made of layers that are wider than 256 pixels: the thumbnail shows points below the picture.)", "quantifier": "for all pictures and layers, nested at any depth, all failures of the writer, and every PNG encoder that looks only inside the bounds", "why_tests_cant": "Pixels outside the bounds and PNG encoders are arbitrary.", "anchors": ["ora/encode.go:Encode", "ora/encode.go:encoder.writeLayers", "ora/encode.go:encoder.writeStack", "ora/thumbnail.go:thumbnail.At", "image.go:Image.At"]}
{"id": "C133", "title": "What is cut away is not saved to OpenRaster", "statement": "After SubImage of a picture, ora.Encode of the part writes the same whatever the rest of the picture was. (It fails for layered images, of which SubImage changes only the bounds of the layers.)", "quantifier": "for all raster images made by any sequence of operations, all parts, and all pictures the part is used in", "why_tests_cant": "All histories of images that share pixels, and all pixels cut away.", "anchors": ["ora/encode.go:encoder.writeLayers", "image.go:Image.SubImage", "layer.go:Layer.SubImageLayer", "rgb.go:RGB.SubImage"]}
{"id": "C134", "title": "Encode writes XCF files as documented", "statement": "A file written by xcf.Encode is a version 3 XCF file as GIMP's documentation describes it: header, properties with their lengths, layer modes by GIMP's numbers, group paths, text layers as parasites, hierarchies, levels and tiles, for the layers of the picture in their order. (It fails for the modes without a number, for which another mode's number is written, and for colours of grey and indexed pictures that are not opaque.)", "quantifier": "for all pictures within the limits of the format, nested at any depth, and all previous contents of the destination", "why_tests_cant": "All trees of layers, all sizes and all names; the description of the format is a relation between files and pictures, not a program.", "anchors": ["xcf/encoder.go:Encode", "xcf/layer_encode.go:encoder.WriteLayer", "xcf/layer_encode.go:modeID", "xcf/image_encode.go:encoder.WriteImage"]}
{"id": "C135", "title": "ora.Encode describes the layers as documented", "statement": "stack.xml in a file written by ora.Encode describes the picture to other programs: the size of the picture, and an element for each layer, in order and nested as the layers are, with its name, position, mode, visibility and opacity, each attribute once, and the entry of the archive with its image. (It fails for layers that are partly transparent, of which no opacity is written and, if they are hidden, one attribute twice; for negative positions; and for modes OpenRaster does not have.)", "quantifier": "for all trees of layers, all names, all libraries that write XML and PNG, and all writers", "why_tests_cant": "All trees, positions, names and modes; what is compared is the file, not what this library reads of it.", "anchors": ["ora/encode.go:Encode", "ora/encode.go:encoder.writeStack", "ora/encode.go:encoder.writeGroupStack"]}
{"id": "C136", "title": "A text quoted by quoteWriter is read back whole", "statement": "quoteWriter (xcf/text.go) puts a backslash in front of each quote and backslash.  What it writes for a text, put between quotes as the value of a tag of a parasite, is read by Parse as that text: every character comes back, whichever it is, and each byte that belongs to no character comes back as U+FFFD; so the text is the same exactly if it was UTF-8.  It reports all bytes as written.  The verb %q, which WriteText uses in its place, writes the same for texts of printable characters.", "quantifier": "For all byte sequences, all names of tags, and whatever is behind a zero byte at the end.", "why_tests_cant": "All texts, with quotes and backslashes in all combinations and with broken UTF-8, in all tags.", "anchors": ["xcf/text.go:quoteWriter.WriteString", "xcf/text.go:quoteWriter.Write", "xcf/parasites.go:quotedString"]}
{"id": "C137", "title": "ReadParasite reads one parasite as XCF files have it", "statement": "ReadParasite returns the name, flags and data of a parasite stored as XCF files store it, and leaves the reader behind its last byte.  At any place of any data it reads the same, and leaves the reader in the same state, as ReadParasites for a list which is said to be as long as that parasite.", "quantifier": "For all names (UTF-8, up to the limit for strings), flags and data; for the second part for all data, positions and errors of the reader.", "why_tests_cant": "All lengths of names and data and all contents, also damaged ones.", "anchors": ["xcf/parasites.go:reader.ReadParasite", "xcf/parasites.go:reader.ReadParasites"]}
{"id": "C138", "title": "Layers in lightening modes lighten and layers in darkening modes darken", "statement": "Where there is something below, putting a layer on top in mode Screen, Addition, Lighten Only, Divide or Dodge makes no channel of it darker, and putting one on top in mode Multiply, Subtract or Darken Only makes none lighter; coverage stays as it is. So it is for any number of such layers on top of a picture. (False as stated: green and blue are computed from the red below, so Lighten Only turns green below black to black; and a half-covering Lighten Only layer of the very same grey darkens it by one. Red never gets darker by more than one per layer, not at all under opaque layers, and never gets lighter in darkening modes; so for green and blue where they are as red below.)", "quantifier": "all such modes, colours of all types below and on top, pictures with any number of upper layers, all states of the random source", "why_tests_cant": "2^128 pairs of colours per mode and stacks of any height; rounding goes wrong by one in few of them, and tests with grey layers never see the channel mix-up", "anchors": ["composite.go:139-178", "composite.go:203-269", "image.go:34-61"]}
{"id": "C139", "title": "A saved file that was cut off is not accepted", "statement": "If any bytes are missing at the end of a file written by Encode - the disk was full, the transfer was interrupted - then Decode and DecodeCompressed do not return an image from it. (False as stated: the pixels that Encode writes for a group are never read, so a file that ends with an empty group is accepted without them. Proved for pictures of storable layers whose last layer is not a group: no proper prefix of the file is accepted.)", "quantifier": "all pictures with such layers, all lengths shorter than the file, both decoders, all interleavings of the goroutines that read the layers", "why_tests_cant": "every length of every file would have to be tried; whether the last bytes are read depends on the order in which layers, masks, tiles and pointers are written", "anchors": ["xcf/encoder.go:29-129", "xcf/image_encode.go:10-93", "xcf/layer_encode.go:12-202", "xcf/image_decode.go:60-317", "xcf/rle.go:40-110"]}
{"id": "C140", "title": "Pixels are compressed well", "statement": "What the writer of run-length encodings writes for any bytes is at most twice as long as the shortest way to write them in the format, and at most four bytes for every run of equal bytes. So the file of a picture is no larger than C106 says, where every tile of a layer, group or mask of one colour takes four bytes per channel and four for its pointer; a layer of one colour of any size takes 20 bytes per tile.", "quantifier": "all byte strings and all ways to encode them; all pictures, any of whose layers, groups and masks are of one colour", "why_tests_cant": "the shortest encoding is not known in a test, and there are infinitely many strings to compare it for; a writer that stores everything as literals passes every round-trip test", "anchors": ["xcf/rle.go:80-153", "xcf/image_encode.go:10-68"]}
{"id": "C141", "title": "Masks and opacities multiply", "statement": "With any number of masks on an image, one over the other, a point's alpha is the image's alpha times all the mask values (as fractions of 255), rounded down, and less than one step per mask below the exact product; its colour is kept, and it is clear as soon as one mask is zero or does not have the point. The order of the masks makes no difference to the colour and less than one step per mask to the alpha (and none for two masks on an opaque image). A layer's opacity works exactly like a mask with that value everywhere, in any group, at any place in it and with any mode.", "quantifier": "every image, every list of masks and every permutation of it, every point and state of the random source; every group and layer", "why_tests_cant": "the number of masks is unbounded and the rounding of every step depends on the one before; a test looks at a few values", "anchors": ["misc.go:13-20", "misc.go:51-64", "layer.go:24-26", "image.go:35-59"]}
{"id": "C142", "title": "The negative of a picture", "statement": "Laying the negatives of two colours over each other in the opposite mode gives the negative of what the colours give: Multiply and Screen, Darken only and Lighten only, Dodge and Burn are opposites, and Normal, Dissolve, Behind and Hard Light their own. For opaque colours this is exact for all of these but Dodge/Burn (which hold where the channels add up to no more than white) and Hard Light (which fails for a top of middle grey); with any alphas it is exact up to two steps. Difference does not see whether both colours are negatives. A whole picture of opaque layers over an opaque background, with every layer replaced by its negative in the opposite mode, is the negative of the picture.", "quantifier": "all colours, alphas, random draws; groups with any number of layers, hidden ones included", "why_tests_cant": "two runs on related inputs, over all pairs of colours", "anchors": ["composite.go:101-178", "composite.go:203-293", "image.go:35-59"]}
{"id": "C143", "title": "DecodeConfig needs only the beginning of a file", "statement": "What DecodeConfig returns depends only on the first 30 bytes of a file unless these say that the picture is indexed; a result without an error stays the same whatever is appended to the file; and for a file written by Encode the first 43 bytes - and 12 and three for every colour of the palette if the picture is indexed - with anything behind them are enough to get the size and the colour model of the picture.", "quantifier": "all files, all contents behind the beginning; all pictures that can be encoded", "why_tests_cant": "two runs on files that may differ in everything but the beginning; the files are unbounded", "anchors": ["xcf/decoder.go:75-108", "xcf/decoder.go:DecodeConfig", "xcf/encoder.go:29-129"]}
{"id": "C144", "title": "What was loaded is saved as the same file", "statement": "Loading an XCF file that Encode has written and saving the picture again writes the same file, byte for byte. (False for half-transparent pixels of grey files. Proved for pictures made of images as they are loaded - with the colour model of the file, at the origin, without text - whose colours the file represents exactly; for pictures without groups and text: RGB ones of any colours, grey ones of any opaque or empty colours, indexed ones of any opaque colours if no two colours of the palette are stored alike; and for every picture loaded from any RGB file whose layers lie on the canvas and were not cut off.)", "quantifier": "every such picture, with groups, masks, opacities and hidden layers; every RGB file that Decode accepts; both decoders, every scheduling and every destination", "why_tests_cant": "equality of whole files over all pictures and files; a test can compare a few", "anchors": ["xcf/encoder.go:29-129", "xcf/layer_encode.go:12-202", "xcf/image_encode.go:10-93", "xcf/decoder.go:110-119"]}
{"id": "C145", "title": "Making layers brighter makes the picture brighter", "statement": "If two pictures have the same layers and every pixel of every image in the second is at least as bright in each channel as in the first, with the same coverage, then so is every pixel of the second picture. This holds in all modes whose definitions grow with both colours: Normal and the modes like it, Dissolve (with the same random numbers), Multiply, Screen, Addition, Darken Only, Lighten Only, Dodge, Grain Merge, Overlay, Soft Light, Burn and Hard Light. (False of the last four, for each of which two greys are given. Proved for the others, without any tolerance for rounding.)", "quantifier": "all trees of layers, groups and masks, all positions, opacities, colours and random numbers", "why_tests_cant": "a relation between two pictures over all their colours; wrap-around and rounding show at single values only", "anchors": ["composite.go:101-178", "composite.go:203-308", "image.go:35-59", "composite.go:371-378"]}
{"id": "C146", "title": "Opacity fades a layer in", "statement": "Over something opaque, a layer with opacity o shows at o/255 of the way from what is there without the layer to what is there with the layer at full opacity, in each channel and up to three steps of 65535 (two if the layer's colour is opaque); a higher opacity never goes back on that way by more than one step; and the pixel stays opaque. (False of the modes Dissolve, Hue, Saturation, Color, Value and Luminosity, which do not look at the opacity or make holes; proved for all other modes, including numbers that are no mode.)", "quantifier": "all modes, colours of all types, all alphas and all pairs of opacities; pictures with any layers below", "why_tests_cant": "a relation between results for three opacities of the same layer, for all 2^112 pairs of colours per mode; rounding makes it wrong at single values", "anchors": ["composite.go:101-178", "composite.go:371-378", "misc.go:51-64", "layer.go:24-26", "image.go:35-59"]}
{"id": "C147", "title": "Stacks of layers are drawn as exact arithmetic would", "statement": "A stack of layers in the modes Normal, Multiply, Screen, Difference, Addition, Subtract, Darken Only, Lighten Only and Grain Extract, with any alphas and opacities, over something opaque shows in each channel what computing with exact fractions would give, up to four steps of 65535 per layer: rounding errors add up, but are never magnified. (False of green and blue, for which the red below is used. Proved for red.)", "quantifier": "stacks of any height, all colours, opacities and positions, layers that show leaf images, masked images or groups without random colours", "why_tests_cant": "errors build up over unboundedly many layers; a test compares a few stacks", "anchors": ["composite.go:101-178", "composite.go:203-239", "composite.go:371-378", "misc.go:51-64", "image.go:35-59"]}
{"id": "C148", "title": "Modes with the same name do the same", "statement": "If String of two composite modes gives the same text, then compositing with one gives the same as with the other, for all colours: names are not shared by modes that differ, and the numbers that are no mode and are named Normal do what Normal does.", "quantifier": "all pairs of 32-bit mode numbers, all colours and random draws", "why_tests_cant": "relates String and Composite over all 2^64 pairs of modes", "anchors": ["composite.go:10-99", "composite.go:101-178"]}
{"id": "C149", "title": "Any part of a picture can be flattened", "statement": "An image without Dissolve layers that is somewhere within a picture - in groups, text or masked layers at any depth, between any other layers of any modes - can be replaced by a plain copy of its pixels, with its bounds and colour model, and Bounds, ColorModel and At of the whole picture give the same as before; such a copy exists for every image with bounds and a colour model. So two images that show the same can be exchanged anywhere.", "quantifier": "all images, all places in all pictures, all points, states of the random source and modes", "why_tests_cant": "a context of unbounded depth around every image; code that treats groups differently from plain images (type switches, caching, bounds) shows at some combinations only", "anchors": ["image.go:15-59", "layer.go:15-26", "misc.go:12-27"]}
{"id": "C150", "title": "Hue, saturation, lightness and value are those of their definitions", "statement": "RGBToHSV and RGBToHSL return the hue of the colour's position on the colour hexagon (red 0, yellow 1/6, green 1/3 and so on, rounded down to 65535ths of a turn, or up if less than a sixth of a unit is missing), the value (the brightest channel, exactly) or lightness (half the sum of the brightest and the darkest, rounded down), the saturation (the chroma divided by the value, or by the largest chroma at that lightness, rounded down) and the alpha of the colour; greys have hue and saturation zero. Both return the same hue, and it does not change when the same amount is added to all channels.", "quantifier": "all 2^64 colours", "why_tests_cant": "2^48 colours with six sectors and two halves of the lightness; wrong rounding or overflow of the 32-bit products shows in few of them", "anchors": ["lcolor/hsl.go:15-41", "lcolor/hsl.go:75-95", "lcolor/hsl.go:118-143"]}
{"id": "C151", "title": "Painting a pixel of a layer changes one pixel of the picture", "statement": "Set, SetRGB, SetGrayAlpha or SetIndexAlpha at a point of an image changes what a picture shows at most at one point: the painted one, moved by the positions of the layer and of the groups the layer is in. It does not matter how the image was made, or whether the picture has the painted image or another one that shares its pixels (by SubImage), and at which depth, under which masks and between which layers of any modes.", "quantifier": "all programs that make images and sub-images and set pixels, all pictures around them, all points", "why_tests_cant": "everything else in the picture must stay the same; a wrong stride or offset shows at one point that a test must happen to compare", "anchors": ["rgb.go:60-101", "grayalpha.go:66-102", "indexedalpha.go:80-121", "image.go:35-59", "layer.go:24-26", "misc.go:12-27"]}
{"id": "C152", "title": "Hue, Saturation and Value take what they say from the layer", "statement": "In terms of the colours before and after, not of their conversions: a layer in mode Hue leaves the brightest channel exactly and the chroma up to two units as they are below it and gives the hue of the layer; Saturation leaves brightness and hue and gives the saturation of the layer; Value leaves hue and saturation and gives the brightness of the layer. Alpha stays that of what is below. Hues agree on the colour circle up to one unit of the result's chroma (and 6/65535 of a sixth of a turn); chroma is brightness times saturation up to two units. In mode Hue a grey layer, or one that is so transparent that no colour is left, changes nothing.", "quantifier": "all pairs of colours of all types", "why_tests_cant": "2^128 pairs; six sectors, wrap-around at red and rounding in both directions of the conversion", "anchors": ["composite.go:310-345", "lcolor/hsl.go:75-188"]}
{"id": "C153", "title": "Color and Luminosity take what they say from the layer", "statement": "A layer in mode Color gives what is below its hue and its saturation (of lightness) and leaves the lightness as it is; a layer in mode Luminosity gives its lightness and leaves hue and saturation. In particular a grey layer in mode Color turns what is below into the grey of the same lightness, and Luminosity turns a grey into the grey of the lightness of the layer.", "quantifier": "every pair of colours of any type, opaque or not, in exact arithmetic over their channels, with no bound", "why_tests_cant": "the conversion back from hue, saturation and lightness is right for greys and wrong by a quarter of the chroma, or by wrapping around, for others; tests with a few colours cannot tell where", "anchors": ["composite.go:101-178", "composite.go:331-345", "lcolor/hsl.go:15-67", "lcolor/hsl.go:118-188"]}
{"id": "C154", "title": "Failing reads never change a picture", "statement": "Whatever calls to the source fail while a file is read - at any time, after any number of bytes, with any error, and independently for the header and for each of the layers that are read at the same time - Decode, DecodeCompressed and DecodeConfig never return another result without an error than they return when no call fails: a failure that matters is reported, one that does not (an error that comes with the last byte asked for) does no harm.", "quantifier": "all byte strings, all sequences of failures of all calls, all schedules of the goroutines, compressed and plain decoding", "why_tests_cant": "failures must be injected at each of thousands of calls, and combinations of them; one unchecked error leaves zeros in the picture", "anchors": ["xcf/reader.go:11-64", "xcf/skip.go:5-122", "xcf/rle.go:18-78", "xcf/rle.go:155-194", "xcf/decoder.go:75-172", "xcf/decoder.go:327-366", "xcf/image_decode.go:14-256", "xcf/layer_decode.go:17-153", "xcf/channel.go:5-51", "xcf/parasites.go:36-65"]}
{"id": "C155", "title": "Failing reads neither crash the decoder nor make it run forever", "statement": "Whatever calls to the source fail while a file is read - at any time, after any number of bytes, with any error, independently for the header and for each layer - DecodeConfig returns; Decode and DecodeCompressed do not run forever on a file in which no image of zero width has a height above 0xffffffc0 and whose text descriptions can be read; and Decode returns a picture or an error on a file of known base type whose image sizes can be handled and whose text descriptions can be read. What is missing because of a failure is never taken for sizes, pointers or texts that crash the decoder. The condition on sizes is needed: a file is given that is refused with an error but read forever when one call fails.", "quantifier": "all byte strings, all sequences of failures of all calls, all schedules of the goroutines", "why_tests_cant": "a failure turns all that is read later into zeros; whether some loop then never ends depends on the call that fails, of thousands, and on the file", "anchors": ["xcf/reader.go:11-64", "xcf/skip.go:5-122", "xcf/rle.go:18-78", "xcf/rle.go:155-194", "xcf/decoder.go:75-172", "xcf/decoder.go:327-366", "xcf/image_decode.go:14-256", "xcf/layer_decode.go:17-153", "xcf/channel.go:5-51", "xcf/parasites.go:36-65"]}
{"id": "C156", "title": "Layers in the same mode can be exchanged and merged", "statement": "Any number of opaque layers, all in mode Addition, Subtract, Darken Only or Lighten Only, over something opaque look like one such layer with the sum, the minimum or the maximum of their values, and can therefore be put in any order; and layers in mode Multiply, or all in mode Screen, of any opacity and with translucent pixels, can be put in any order, with a change of rounding only (eight of 65535 steps for every layer at most). (False of green and blue of layers that are not grey, as the red below is used for all channels; proved for red, for coverage, and for greys.)", "quantifier": "all numbers of layers, all orders, all colours, positions and points, with hidden layers and layers elsewhere among them", "why_tests_cant": "the number of orders grows with the factorial of the number of layers; rounding errors add up", "anchors": ["composite.go:101-178", "composite.go:202-210", "composite.go:227-245", "image.go:35-59"]}
{"id": "C157", "title": "Small files are read with few calls", "statement": "DecodeConfig, and Decode in front of the layers, read from the source at most once for every byte of the file and once more, whatever numbers, lengths and counts the file claims, and whichever calls fail; there are at most a quarter as many layers as bytes, and for each of them, at whatever places its parts are, the source is read at most (n + 1)(n/2 + 7) times for a file of n bytes. (Seeks are not counted.)", "quantifier": "every sequence of bytes as file and every plan of failing calls", "why_tests_cant": "a count over all files and failures; a few files say nothing about hostile counts", "anchors": ["xcf/decoder.go:75-108", "xcf/decoder.go:128-156", "xcf/decoder.go:174-325", "xcf/skip.go:5-122", "xcf/parasites.go:36-65", "xcf/reader.go:16-64"]}
{"id": "C158", "title": "Thumbnails have the shape of the pictures", "statement": "The thumbnail ora.Encode writes of a picture with a side longer than 256, wherever its bounds are, has the sides of the picture shrunk in one ratio, that of its longer side to 256, to within two points, and its longer side is 255 or 256; if the picture begins at the origin, as those read from files do, the longer side of the thumbnail is exactly 256 and the other one is rounded down.", "quantifier": "all pictures with coordinates below 2^44 in absolute value, all places, all divisions of float64 that follow IEEE 754", "why_tests_cant": "rounding of negative coordinates goes the other way, and a scale of the wrong side only shows for tall pictures", "anchors": ["ora/encode.go:16-20", "ora/encode.go:107-119", "ora/thumbnail.go:8-21"]}
{"id": "C159", "title": "Files are written with few calls", "statement": "Encode makes no more WriteAt calls than it hands bytes to them, whatever the picture and whatever the writer does; if it succeeds, every byte of the file is handed over exactly once, so that there are at most as many calls as the file has bytes, and at most as many as C106 gives for the size of the file of the picture.", "quantifier": "all pictures that can be given to Encode, all writers, failing at any calls after any number of bytes", "why_tests_cant": "the number of calls depends on the runs in the pixels of every tile; a test sees that a file is right, not how often the writer was called, or with how little", "anchors": ["xcf/writer.go:29-99", "xcf/rle.go:82-153", "xcf/encoder.go:29-112", "xcf/layer_encode.go:9-202", "xcf/image_encode.go:10-68", "xcf/channel.go:53-65"]}
{"id": "C160", "title": "Dissolve layers are seen as often as their alpha says", "statement": "Of the 65535 values the random source returns equally often, exactly as many show a Dissolve layer at a point as the 16-bit alpha of the layer there says. (The code uses the alpha of what is below the layer instead: exactly as many values show the layer as that alpha says, and the alpha of the layer makes no difference.)", "quantifier": "all pairs of colours; all pictures with a Dissolve layer on layers that are not random, all points", "why_tests_cant": "a test draws a few random numbers; the share of the values that show the layer is about all of them", "anchors": ["composite.go:193-201", "image.go:35-59"]}
{"id": "C161", "title": "Mirrored, turned and enlarged layers make mirrored, turned and enlarged pictures", "statement": "If all images, masks, layers and groups in a picture are mirrored (or their lines and columns exchanged, or each of their points made a square of k by k points), then At shows at each point what it showed at the corresponding point before, with the same random numbers drawn; ColorModel is the same; and Bounds holds exactly the corresponding points.", "quantifier": "all pictures of any depth, all points, all factors k, all random sources", "why_tests_cant": "the coordinates in each nested group are relative to its layer; a test tries some nestings and some points", "anchors": ["image.go:15-59", "layer.go:18-26", "misc.go:12-27"]}
{"id": "C162", "title": "Layers in a pass-through group are drawn as if there was no group", "statement": "Putting some consecutive layers of a picture into an opaque, visible group in mode Pass-through which is large enough for them does not change any pixel of the picture: CompositePassThrough is read from and written to XCF files as GIMP's mode of that name, in which the layers of a group act on what is below the group.", "quantifier": "for all stacks of layers above, in and below the group, all places of the group, all pixels and all random numbers (layers above in mode Color left out)", "why_tests_cant": "whether it holds depends on the modes, alphas and color models of all layers above, in and below the group; tests draw one stack", "anchors": ["composite.go:57", "composite.go:101-191", "image.go:35-59", "xcf/layer_decode.go:228", "xcf/layer_encode.go:182"]}
{"id": "C163", "title": "A layer cut into pieces looks the same", "statement": "Cutting a layer of a picture along any rectangles into pieces with SubImageLayer and putting all the pieces in its place does not change any pixel of the picture.", "quantifier": "for all layers, all rectangles that make up the bounds of the layer without overlap, all layers above and below in all modes, all points and all random numbers", "why_tests_cant": "pieces, modes, opacities and the layers above and below can be combined in endless ways; tests cut one layer one way", "anchors": ["layer.go:19-40", "image.go:35-59"]}
{"id": "C164", "title": "A group of layers side by side looks as its layers with its mode and opacity", "statement": "If the layers in a group are opaque, in mode Normal and nowhere two at the same point, the group can be replaced by its layers, each with the mode and the opacity of the group, and no pixel of the picture changes.", "quantifier": "for all such layers and groups large enough for them, all modes and opacities of the group, all layers above (not in mode Color) and below, all points and all random numbers, in pictures that are not indexed", "why_tests_cant": "the group is drawn in two steps with rounding in between; tests compare one group in one mode", "anchors": ["image.go:35-59", "layer.go:19-26", "composite.go:101-191", "misc.go:51-64"]}
{"id": "C165", "title": "How large a group is does not matter as long as its layers fit in", "statement": "Giving a group in a picture other bounds, with its layers left where they were, does not change any pixel of the picture if all its layers are inside the old and the new bounds.", "quantifier": "for all groups of any layers in any modes, all modes and opacities of the group, all bounds that hold the layers, all layers above (not in mode Color) and below, all points and all random numbers", "why_tests_cant": "outside its layers the group draws transparent pixels over what is below, in its mode; whether these show depends on the mode and on the layers below, and tests try one of each", "anchors": ["image.go:35-59", "layer.go:19-26", "composite.go:101-191"]}
{"id": "C166", "title": "An image can be exchanged for one that looks the same", "statement": "If two images have at each point the same colour, or both a fully transparent one of whatever colour, then putting one in the place of the other in a layer anywhere in a picture changes no pixel of the picture.", "quantifier": "for all pairs of such images of any kind and all pictures, at any depth in groups, masks and text layers, with layers in any modes above, below and around, if the layer with the image is not in mode Dissolve, Saturation, Color, Value or Luminosity (in mode Color, with no such layer above, pixels change only where they are fully transparent; in the others it is false); all points, all random numbers", "why_tests_cant": "two programs may write different colours under transparent pixels; whether that shows depends on each layer around them, and tests compare single pictures", "anchors": ["image.go:35-59", "layer.go:19-26", "misc.go:12-64", "composite.go:101-191"]}
{"id": "C167", "title": "Indexed pictures show only colours of their palette", "statement": "Every pixel of a picture loaded from an indexed file is invisible or has a colour of the palette of the file.", "quantifier": "for all indexed files that are accepted, eagerly or lazily loaded, with any tree of layers, all points and all random numbers, if the layers of each group are side by side (as in pictures of one layer), or if no pixel of a layer with its opacity and mask is partly transparent and groups are opaque or invisible (otherwise it is false)", "why_tests_cant": "files have any number of layers, groups and modes; tests load a few files", "anchors": ["image.go:35-59", "xcf/image_decode.go:284-290", "xcf/image_decode.go:300-309", "xcf/layer_decode.go:24", "xcf/layer_decode.go:127"]}
{"id": "C168", "title": "Pictures with a background are opaque", "statement": "Where a layer in mode Normal is opaque the picture is opaque, whatever layers are above and below. In particular, a picture loaded from a grey or indexed file whose lowest layer has no alpha is opaque wherever that layer is.", "quantifier": "for all pictures, points and random numbers and all layers above and below in all modes, if no layer in mode Color is seen above (with one it is false); for all grey and indexed files that are accepted without any such condition, if the lowest layer is visible with full opacity and without a mask", "why_tests_cant": "all modes, colours and numbers of layers above; tests have a few stacks of layers", "anchors": ["image.go:35-59", "composite.go:101-191", "xcf/decoder.go:428-434", "xcf/layer_decode.go:126-136"]}
{"id": "C169", "title": "Loaded XCF pictures stay on the canvas", "statement": "The bounds of a picture that xcf.Decode returns lie within the canvas whose width and height are in bytes 14 to 21 of the file, and At returns a fully transparent colour at every point outside the canvas.", "quantifier": "for all files that are accepted, eagerly or lazily loaded, with any layers of any size at any offsets, in any tree of groups, all points outside the canvas and all random numbers", "why_tests_cant": "layers may begin and end anywhere outside the canvas, in groups that do so too; tests load a few files whose layers fit", "anchors": ["xcf/decoder.go:404", "xcf/decoder.go:129-139", "image.go:24-32", "image.go:35-59"]}
