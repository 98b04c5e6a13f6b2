# Formal model of grf-py in Lean 4: design

## 1. Conventions

* `lean/Verif/Model/*.lean` - executable model of the Python code, function by function. Every definition cites
  `grf/<file>.py:<lines>` and names its simplifications.
* `lean/Verif/Spec/*.lean` - specifications that do not use the model: the NewGRF VarAction2 machine, expression semantics, the
  calendar, the container grammar, Action 6/7/9/D execution for railtypes, reference graphs.
  Small specifications stand at the head of the `Props` file which uses them (screen pixels of a sprite, the game's purchase list, LZ77
  token streams, packet streams ...).
* `lean/Verif/Props/*.lean` - property theorems, each with `example`s showing that its hypotheses are met by a concrete case;
  `lean/Verif/Proofs/*.lean` - lemmas.
* A Python exception is `none` (any exception) or `Except.error e`. Bytes are `UInt8`, byte strings `List UInt8`, Python `int` is `Int` or
  `Nat`, `dict` is an association list in insertion order (`dictSet` replaces in place, as Python does).
* `struct.pack` keeps its range checks (out of range raises `struct.error`).
* Suffix `_partial`: the English property asks for more than the theorem says. What is missing is said at the theorem, in
  `MANIFEST.json`, and, where the code itself is wrong, shown by a theorem with a concrete counterexample.
* Where the code does not meet the expectation of a user for some inputs, the property states the expectation with its exact boundary and
  the theorem is an equivalence (`_iff`): the good outcome happens if and only if the input is inside. Section 6 lists the boundaries.

## 2. Trusted base

* Lean 4.33.0's kernel. Axioms: only `propext`, `Classical.choice`, `Quot.sound` (per theorem: section 7). No own axioms, no
  `native_decide`, no `bv_decide`. `decide +kernel` is kernel evaluation; it is used for concrete cases (examples, counterexamples) and
  for finite tables which are the complete domain (for instance, all 256 property codes of a feature table).
* The reading of /repo. The model is written by hand from the source text; nothing of /repo is run.
* The reading of the game: the specification of the VarAction2 machine, of Actions 0/6/7/9/D, of the purchase list sort property and of
  the admin protocol is from the NewGRF and OpenTTD documentation.
* Assumptions about third-party code, all of which are parameters or explicit hypotheses of the theorems which use them:
  * nml: `lz77.encode` (hypothesis "the reader undoes it" in C54, shown satisfiable), `is_ascii_string` (parameter in C50),
    language file parsing (`handle_text` raises on a duplicate name), C36;
  * ply: the lexer and parser tables of `parser.py` (the grammar itself and the resolution of its conflicts by precedence are modelled in C56; the error recovery of ply is not);
  * hashes: `xxhash`/`hashlib` are arbitrary functions; theorems state what happens with and without collisions (C30, C36, C37);
  * `datetime` is the proleptic Gregorian calendar (C03); numpy arrays are matrices of bytes with uint8 wrap-around, slices and
    broadcasting as in numpy 1.25 (C44-C46, C54); PIL images are matrices of pixels;
  * the file system: `shutil.move`, `os.unlink`, `open` as described in `Model/Write.lean` with a failure possible at every step;
  * Unicode normalisation (`unicodedata`) is a parameter (C48).

## 3. What is modelled

| code | model | properties |
|------|-------|------------|
| common.py: hex, signed conversions, dates, extended bytes, DataReader, features | Bytes, Common | C01-C04 |
| actions.py: SpriteRef, Ref, get_ref_id | SpriteRef, Common | C05, C06 |
| actions.py: all Action 0 property tables and formats, Define | PropTables, PropCodec, Define | C07-C11 |
| actions.py: get_data of every action; decompile.py: decode_action* of every action | Actions, Props14, Dispatch | C12-C20 |
| parser.py: AST, compile, CodeContext, simplify; actions.py: Switch | Ast, Compile, Decode, Switch, (Spec) VA2, ExprSem | C21-C26 |
| grf.py: resolve_refs (both phases) | Refs | C27, C28 |
| grf.py: _enumerate_sprites, _do_write; decompile.py: read loop, read_real_sprite | Container | C29-C32 |
| grf.py: write | Write | C33, C51 |
| grf.py: IDMap, sounds, add/generate_sprites; strings.py: StringManager; cache.py | IdMap, Sounds, Strings, Cache | C34-C37, C52 |
| grf.py: cargo and railtype tables and their actions | Tables | C38, C39 |
| lib/misc.py, lib/train.py, lib/vehicle.py (purchase order), lib/callback.py | Misc, Purchase, Train, Callbacks | C40-C43, C53 |
| sprites.py: _do_crop, get_real_data, PaletteRemap; decompile.py: decode_sprite, decode_chunked | RealSprite, SpriteData, Remap | C44-C46, C54 |
| decompile.py: sprite sheets, resource names, save_*_resources | Sheet, ResNames | C47, C48 |
| utils.py: ttd_pack, make_packet, admin_logging; strings.py: text escapes | Packets, TextEsc | C49, C50 |
| actions.py: BasicSpriteLayout, AdvancedSpriteLayout; decompile.py: read_sprite_layout | Actions | C55 |
| parser.py: lexer, grammar with precedences, `format` of every node | Syntax | C56, C57 |
| lib/industry.py: Building, layouts | Industry | C59, C60 |
| actions.py: `py()` and constructors of the action classes | Py | C66 |
| va2vars.py: tables; actions.py: Switch.parsed_code | VarTables | C67 |
| lib/rv.py, ship.py, train.py, vehicle.py: sprites and liveries | VehicleSprites, LiveryObjs | C68 |
| lib/rv.py, ship.py, train.py, object.py: speeds, weights, effects, sizes | VehicleNumbers | C69 |
| grf.py: NewGRF arguments, parameters | Info | C70 |
| sprites.py: sprite classes, fingerprints; grf.py 551-613 | SpriteTree | C71, C72 |
| vox.py: VoxReader, VoxFile | Vox | C73, C74 |
| utils.py: watch_func, async_compile | Watch | C75 |
| colour.py: palettes, brightness; sprites.py: fix_palette, quantize, make_rgba_image | Palette | C76, C77 |
| decompile.py: ParsingContext, save_graphics_resources, GraphicsSpriteGen; sprites.py: RAWSound | Extract | C78, C79 |
| lib/train.py, lib/vehicle.py: global settings | Globals | C80 |
| sprites.py: restore_rgba_image | Restore | C81 |
| sprites.py: save_gif | Gif | C82 |
| grf.py: SpriteSheet | SpriteSheet | C83 |
| sprites.py: AlternativeSprites | Alternatives | C84 |
| lib/train.py, lib/rv.py, lib/ship.py, lib/vehicle.py: callbacks set by the classes | VehicleCallbacks | C85 |
| grf.py report counters, decompile.py statistics | Report | C87 |
| actions.py get_refs and get_data of the linked objects, as a whole file | Chain | C88 |
| lib/callback.py, the objects of the manager in a file | CallbackObjs | C89 |
| lib/vehicle.py `_gen_purchase_sprites` with lib/callback.py, resolved | Refs, VehicleSprites | C90 |
| lib/industry.py, the switches of the tile as objects | IndustryObjs | C91 |

## 4. What is not modelled

`VoxTrainFile` (vox.py), the floating point colour spaces of colour.py, comments and statistics of `decompile`, reading of old
containers (version 1), PIL image loading and saving, the socket of the admin connection, performance behaviour and console output.
Floating point numbers are nowhere modelled.

## 5. Plan and method per property

| id | modelled | proof |
|----|----------|-------|
| C01-C06 | functions of common.py / SpriteRef / Ref on Int and bytes | round trips for all values with omega and bit lemmas; dates against an independent calendar by induction on days |
| C07-C11 | encoder and reader of every property format on byte lists | one round trip theorem over all formats with arbitrary trailing bytes, by induction on lists and layouts; acceptance characterised per format |
| C12-C20 | get_data of each action and the matching decode_action* | round trip per action; first-byte theorem over the sum of all actions; counterexample theorems for the excluded fields |
| C21-C24 | AST, compile, registers, simplify; the VarAction2 machine as specification | compiler correctness by induction on expressions with a register frame invariant, between a source level and a machine level world; procedures are linked by induction over the list of definitions (Props/Link.lean), so nothing is assumed of the registers a callee changes; decoder as a simulation |
| C25-C26 | Switch.get_data and the decoder loop | list induction, signed/unsigned arithmetic |
| C27-C28, C58 | both phases of resolve_refs as a traversal with id heap and refcounts | traversal invariants over all graphs C27 exactly (`Proofs/Refs4.lean`, `Props/RefsExact.lean`): the first phase is followed without assumptions on the order of adding or on raw references; the roots of the traversal are exactly the unreferenced actions. C28 and C58 (`Props/RefsIds.lean`, `Props/RefsOrder.lean`) from the history of the traversal: an action's owner, the first of its users, and the invariant that an id is reused only after the last user of its previous owner was visited. |
| C29-C32 | _do_write, _enumerate_sprites, the reader loop | parse-back by induction over the sprite list, schedule invariants |
| C33, C51 | write as a state machine over a file system with an arbitrary failure point | case analysis over all failure points |
| C34-C38, C52 | IDMap, sounds, StringManager, SpriteCache, tables, add/generate as state machines | invariants over arbitrary operation lists |
| C39 | the generated actions and an interpreter of actions 6/7/9/D/0 | induction on fallback lists |
| C40-C43, C53 | lib generators; the game's sort and variant properties as specification | induction over item lists and nested groups |
| C44-C48, C54 | images as matrices; crop, write, read, LZ77 and chunk decoding, sheets, names | exact pixel-level specifications, induction over token streams and cells |
| C49-C50 | packets, log lines, text escapes | parse-back by induction over streams |
| C55 | constructor, writer and reader of both layouts on byte lists | round trip by induction on the list of sprites; exact criterion (iff) for recompilation; counterexamples |
| C56 | lexer, shift-reduce machine with the precedence table, printer on lists of characters | printer output = token list (induction on the expression, lexer lemmas with an arbitrary safe continuation); the machine on these tokens reaches a state that reduces as the expression does (induction, arbitrary stack and continuation); exactness: every printable expression is a tree of tokens, the machine either refuses it or produces a value whose own tokens are the ones read, and a well-bracketed token list has one tree only |
| C57 | composition of the models of C24, C56, C21 | decoded code is nested to the left (induction over the decoder loop); each faithful line compiles to one run of operations that does what the decoded expression does in every machine (induction over the printed grammar, no registers are taken); acceptance by the same induction; then C24 and C56 |
| C59, C60 | `Model.Industry`: the strips cut from a building's image (offsets, crops), the layout property, the chain of switches on layout and tile position; a picture is the function from pixels to image points | strips partition the pixel columns and rows (arithmetic on the cut, induction over tiles); the switch is looked up by its unique key (the numbers of the tiles are pairwise different); the picture of a layout is the union over its buildings |
| C61 | `Model.Actions`: the encoders; `Spec.ActionFormat`: each action as a list of fields (byte, signed byte, word, double word, text) with the numbers it holds, independent of the encoders | each encoder is a concatenation of packed fields; a lemma turns such a concatenation into `WrittenAs` (all fit, bytes in order); flags by arithmetic (or with a power of two is addition when the bit is clear) |
| C62 | `Model.Refs`: both passes with every way they can fail | induction on the recursion limit with a rank of the actions; invariants of the second pass: reference counters against the actions placed, free ids plus actions with ids make at least 255, features only ever set to that of the current root |
| C63 | `generate_python` with regard to names and references: the two loops, the names, what is printed for a reference; running the script (names assigned once in order, an unassigned name is an error) | induction over the lines with an invariant; C62, C27 and C28 for writing the result |
| C64 | the decoders `decode_action1` to `decode_action12` with `read_random_switch`, `read_sprite_layout`, as in C12-C20 | a small language of documented forms (Spec/ReadFormat.lean); each decoder read field by field, both directions |
| C65 | `Model.Define`, `Model.PropCodec`: `decode_action0`, `read_property` and every `Property.read`, old station layouts included | a relation between values and the bytes that state them (Spec/PropForm.lean); each reader field by field in both directions; dictionaries and layouts by induction over the bytes |
| C66 | `Model.Py`: `py()` of every action class as an expression of Python, evaluation of such expressions, the signatures and constructors | for each class evaluation of what is printed is computed; the decoders are shown to make only accepted fields; texts of switches by the lexer (blanks) of C56 |
| C67 | `Model.VarTables`: the tables of `grf/va2vars.py` as data, the choice of the table for a switch, and the code of a switch from its text | facts about the entries decided over the whole tables; what a name computes by the encoding of accesses; decompiled code by C24, C56 and C57 with the tables of both scopes |
| C68 | `Model.VehicleSprites`: the sprites of vehicles in the order they are added; resolution from `Model.Refs` | the exact output of resolution gives, for every action, the items before its place in the file; sprite sets by a small separate specification (`Spec.SpriteSets`); the switch over the liveries by its meaning (C88) and in the game by C89 |
| C69 | `Model.VehicleNumbers`: speeds, weights, effects and sizes, with the two tables of ships as data | integer arithmetic; tables decided over all 256 entries |
| C70 | `Model.Info`: `NewGRF.__init__`, the two functions adding parameters and the head of `generate_sprites`; `Spec.InfoSpec`: format of the block and what the game makes of each node | mutual induction over the tree of properties (bytes → nodes), then folding the nodes; exact acceptance by the same induction |
| C71 | `Model.SpriteTree`: the sprite classes with their constructors, drawing, fingerprints and resource files, `get_sprite_fingerprint`, the text of `json.dumps`, `get_sprite_data` over `Model.Cache` | injectivity of the text (mutual induction with what follows), then of the fingerprint together with the list of files (induction over sprites, with what follows); invariant "every cache file is what drawing gives for all sprites with that key" over builds |
| C72 | `Model.SpriteTree` (drawing) | pixel by pixel from the layers; the header by reading it back |
| C73, C74 | `Model.Vox`: `VoxReader`, `VoxFile._load`, `make_house_sprite`; `Spec.VoxSpec`: the file format, the pixels of a cube | chunk by chunk for reading; invariant of the depth buffer over the list of voxels; closed form of the 4x picture by induction over cells and rows; no gaps from the parity of cubes' corners and the order of depths |
| C75 | `Model.Watch`: transition system of the watch loop, the observer's callback and the files | invariant between the starts of two builds over all steps; histories by induction from the end |
| C76 | `Model.Palette`: the palettes as literals, `fix_palette` with its global cache, `quantize`, `oklab_find_best_colour` | uniqueness of the palette's colours by kernel computation over all entries; soundness of the cache as invariant over sequences of pictures; argmin by induction |
| C77 | `Model.Palette`: `openttd_adjust_brightness`, `make_rgba_image` | packed products as sums without carry, then linear arithmetic |
| C78 | `Model.Extract`: `ParsingContext` and what the decoders of actions do to it, `RAWSound`, reading of sounds | induction over the parts with the context as state; the announcing actions from C64 |
| C79 | `Model.Extract`: grouping, sheets (C47), `GraphicsSpriteGen.py`, and running the printed statements | dictionaries of lists as filters; uniqueness of paths and variable names; cells of the sheets (C47); invariant between the names given out and the variables assigned, over the list of placeholders |
| C80 | `Model.Globals`: the three classes, on top of Action D (C62) and the property codec (C10) | exact bytes of each setting, then induction over the list of settings with the state of a small game |
| C81 | `Model.Restore`: numpy views, `restore_rgba_image`, slices, `reshape` and `concatenate` | strides: division of the offset of a part gives back row and column; pixel grids as lists |
| C82 | `Model.Gif`: `init_cycle`, the palette and remapping of each frame; `Spec.Animation`: palette animation of the game and a viewer of animated pictures | invariant over the ranges set up (their entries of the palette stay), induction over time; cycle lengths are powers of two, so they divide the longest; periodicity by arithmetic |
| C83 | `Model.SpriteSheet`: both loops of `make_image`, with the objects' places as state | closed forms for rows and columns by induction over the loops, prefix sums; drawing order: later sprites are apart |
| C84 | `Model.Alternatives`: the constructor and `get_sprite` | counting different pairs; the first index with a property |
| C85 | `Model.VehicleCallbacks`: the assignments of the classes to the callback manager and the switches they make | setting later equals giving at construction (commuting dictionary updates), then the exact dispatch theorems of C42 with the merged dictionary; in the game: the theorem of C89 for that dictionary, and the meaning of the classes' switches |
| C86 | `Model.Refs` with two object stores: before the first write and before a later one | simulation between the two traversals: the same free ids (ids in the pool that are not reserved) although pool and reserved set differ; every id met in the second traversal is the final one of the first because assigned ids never change; sounds and texts: what has an id is found in the table, by induction over nested generators and requests |
| C87 | `Model.Report`: the counters beside the loop of `Model.Container`, the statistics beside the context of `Model.Extract` | loop invariant linking counters, set of actions done and real sprites in the file; the real-sprite section is told apart by its bytes, so the invariant meets that of the container; sums over the dictionary of statistics |
| C88 | `Model.Chain`: objects pointing to objects, their `get_refs` and bytes after resolution; `Spec.GameChain`: the game loading and running groups; `Spec.ChainSem`: what the objects mean | composition of C21/C22 (code), C25/C26 (switch bytes), C27/C28/C58 (resolution), C29 (container): each id means its target when an action is loaded because nothing with the same id comes between; simulation by induction on the depth; subroutine names and numbers are exchanged by a renaming lemma |
| C89 | `Model.CallbackObjs`: the trees of `Model.Callbacks` as objects of a file | composition of C42 (which handler), C67 (what the named fields read) and C88 (from objects to the game): a switch over a field means what is found under the field's value |
| C90 | `Model.Refs`, `Model.VehicleSprites` | the traversal of a map visits the layout added for it first (`Lead`, from exact lemmas about `ordered_refs` and `unordered_refs`), so the order of the traversal is that of the output; then as C28 |
| C91 | `Model.IndustryObjs`, `Model.Industry` | the switches as objects of C88; the meaning of a switch over a field of either scope (`var_switch`), composed with `tile_sprite` (C60); the code texts are parsed by the model of the parser |

No property is listed as not applicable; run-time parts (file system, hash functions, compressors) are parameters and are named in the
theorem statements.

## 6. Where the code does not do what a user would expect

Each of these is a theorem (a concrete counterexample checked by the kernel, or a statement for all inputs).

* References: a forward reference, a target shared by two users, a raw reference or a cycle is emitted late or dropped; ids given
  explicitly are handed out to others as well (C27, C28). The reordering loop in `_enumerate_sprites` never runs (C30).
* Sprite sharing compares 64-bit hashes only (C30). `write` to another device can leave half a file; an interrupt leaves the temporary
  file (C33). The set of watched files is always empty (C51).
* IDMap: ids loaded from the file do not block manual ids; `BaseNewGRF.reserve_ids` raises TypeError (C34). A SingleResourceAction given
  to `add` is dropped silently, a sound action raises (C35, C52).
* StringManager: automatic names can clash with user names, importing a language directory forgets texts, ids are keyed by hash, global
  ids run into the persistent range (C36). The cache serves truncated and damaged files (C37). A repeated railtype or cargo label shifts
  the ids (C38).
* Property codecs: `8*B` has no reader, size tuples are not range-checked, dictionary key 0 ends the list, child sprites of station
  layouts are not written, register order matters, bounding box registers of ground sprites are misread, a parent at z=128 is misread, a
  a special check makes an industry layout unreadable (`utoi8` is not imported in actions.py), property 0x12/0x27 of industries share a name (C07-C11).
* Actions: zero sprite sets (1), 128 or more loaded sets (2), 128 or more ids, missing ids, wagon overrides (3), no strings or languages
  from 0x80 (4), set types from 0x80 (5), parameter 255 (6), bit tests (7/9), operations above 0x0C and dropped values (D), error
  messages (B), short, duplicate or NUL-containing keys and texts (14), random switches with relative scope, comments (first byte 0),
  production callbacks (0x0A) and glyph/translation actions are not read back or not written correctly (C12-C20).
* Compiler: computed parameters as operands, calls that overwrite spilled values, parametrised table variables, a user register from
  0x80 on (C21). Switch ranges with low >= 0 > high match other values than the user wrote; a switch without ranges ignores its default
  (C25). The decoder duplicates or drops the accumulator in two cases (C24).
* lib: DisableDefault given a generator disables nothing (C40); SetPurchaseOrder uses the feature of the first vehicle; added
  articulated parts are split with the parity of the train's own length, and non-positive lengths are accepted (C43); the visual effect
  byte is destroyed by the wagon power choice (C53); two switches without id for one property are taken for the same, so a purchase
  handler can run on the map; the railtype callback `gui` (id 0) is lost; callback flags of houses and airport tiles are refused;
  `station_rating` needs a property that does not exist; unknown property names are ignored (C42).
* Sprites: overlapping back-references (legal LZ77) are refused or lost, offset 0 is accepted, a chunk one pixel past the line is
  accepted (C46); cropping looks at RGB only when there is no alpha layer, so masked black pixels vanish (C44); negative remap ranges
  follow Python slices and a short buffer is written as it is (C45).
* Tools: surplus packet arguments are dropped, NUL in packet text is misread, the last unfinished log line is lost (C49); text escapes
  accept signs, spaces and underscores (C50).
* Tile layouts: palette offsets and bounding box registers are not written, a parent at height 128 is misread, negative offsets and basic layouts are read back in a form the constructor refuses (C55).
* Decompiled text: `(a | b) & c`, `(a << b) & c`, `a * (b / c)` and `a < (b < c)` are printed without brackets and mean something else when compiled again; unsigned division, bit tests and named variables with parameters are printed in a form the grammar does not have; modifiers of type 3 are lost (C56, C57).
* Callbacks: of the properties of aircraft only `loading_speed` is registered under its number (asked for its price, an aircraft answers with the handler for its speed; `primary_cargo_capacity` and `cargo_age_period` are unknown, their table keys being given twice); the flag of a road stop's `anim_speed` (3) announces two other callbacks; the visual effect of road vehicles and ships is never announced (C42).
* Industry layouts: the length of a building is taken for both directions (lib/industry.py 142-143), so only square buildings are laid out as drawn; the switch counts layouts from 0 while the variable counts from 1 (C60).
* Scripts: lines of tile layouts (`SpriteRef`) and of definitions with bridge, industry or station layouts use names the script does not import and cannot be run; a switch with a range given twice chooses differently after decompiling (C66).
* Variables: the decompiler names the variables of a related object from the table of the feature itself while the compiler uses that of the related feature; names of variables 60..7F without a fixed parameter are compiled without the parameter byte the game expects (C67).
* Callbacks of canals, cargos, airports, airport tiles, road types and tram types can never be written: the switch over `current_callback` is refused since these features have no variables (C42).
* Layouts shared by two vehicles draw the sprites of the first; a `SpriteTable` which is not a `VehicleSpriteTable` has no width and cannot be written (C68).
* `Ship.kmhish` gives a quarter of `Ship.kmh`; ships accept speeds up to 255 km/h (mph) but only 127 (79) can be written; `Train.visual_effect_and_powered` loses the effect when wagon power is on, the default; `Train.add_articulated_part` uses the train's weight instead of the weight given (C69).
* A lowest compatible version without a version is ignored by the game; more than 128 parameters are written (up to 255) but the game skips the rest (C70).
* `write(debug_zoom_levels=True)` fails with a `KeyError` for every file with a sprite; `WithMask`, `MoveSprite` and the other wrappers do not notice attributes changed after construction when looking into the cache; a `FileSprite` without a size keeps the size of the first picture it was drawn from (C71).
* Voxel houses: depths are any integers (floats in the code), the palette functions are parameters, `VoxTrainFile` is not modelled. With numpy 2 a model wider than 255 is refused, with numpy 1 coordinates wrap.
* Watch: times are left out; paths are taken to be resolved, `watchdog` reports exactly the modifications in watched directories; a build is the files it looks at and its end.
* Palettes: the distance in oklab (floats), Python's `hash` and Pillow's `quantize` are parameters. `make_rgba_image` is modelled pixel by pixel.
* Decompiled sounds have one byte too many (the zero after the name is not counted, decompile.py 1252); sounds of old containers are lost (`NameError`); recolour sprites of version 2 files are decoded as Action 0 (C78).
* Decompiled graphics: a script for a sprite without layers uses `EMPTY_SPRITE`, which is not imported; an 8bpp sprite in a group with a 32bpp one becomes invisible in colour; alternatives are added as sprites of their own, which shifts everything after them; sprites with opacity but no colours are dropped (C79).
* Watch: the list of files `write` returns is always empty (C51), so in the code as it is only the script is watched; C75 takes the list as arbitrary.
* Negative depot offsets raise `struct.error` (C80). The game keeps flag 3 of the misc flags per file, which the specification does not distinguish.
* `restore_rgba_image` ignores the steps of the layers when the picture has their size, so `picture[:, ::-1]` is written unmirrored; it raises `ValueError` for parts of reshaped buffers (C81). C44 and C54 take the layers as values.
* `save_gif` raises `ValueError` for sprites with radio tower colours (a pair is unpacked as a triple) and for sprites without animated colours; fizzy drinks are never animated (the slice `has_colors[-5:0]` is empty) (C82).
* `VoxTrainFile.make_sprites` fails with its default colour functions (`darken`, `brighten` do not exist), so it is not modelled.
* A road vehicle of at least 0x400 (precise units) with a callback for any single property cannot be generated (`fast_road_vehicle_properties`).
* An action object used in two files brings its id from the first into the second, where a new object can get the same id (`remembered_ids_clash`).
* The statistics of the decompiler count four bytes too many for each pseudo sprite (`l + size_bytes * 2 + 1`): `stats_total`, `stats_more_than_file`.
* The same handler for two purchase callbacks, or the vehicle's graphics inside one, gives another action the id of the purchase layout while it is in use; the purchase list then shows that layout (`shared_handler_hides_purchase`, `shared_graphics_hide_purchase`).
* The switch of an industry layout without buildings has no ranges and gives the position of the tile instead of the empty sprite's number (`empty_layout_gives_position`).

## 7. Axioms of each theorem of the manifest

(Names without the prefix `Grf.`.)

* none: `Acts.modify_parameter_255_lost`, `Callbacks.extra_flag_properties`, `Callbacks.flag_properties`, `Chain.train_item`, `IdMap.reserve_ids_of_grf_fails`, `Purchase.callbacks_required`, `Remap.remap_encoding_injective`, `Remap.short_buffer_written`, `Sounds.new_sound_stored_again`, `Sounds.resource_action_lost`, `Sounds.sound_action_refused`, `Strings.hash_collision_shares_id`, `Tables.cargo_given_twice`, `Tables.railtype_added_twice`, `hex_roundtrip_fails_on_empty`.
* `propext`: `Acts.basic_layout_not_recompilable`, `Acts.bit_test_misread`, `Acts.compute_unknown_operation_unreadable`, `Acts.glyphs_lost`, `Acts.group_and_random_switch_collide`, `Acts.no_ids_reference_refused`, `Acts.old_layouts_not_written`, `Acts.parent_at_height_128_misread`, `Acts.wagon_override_lost`, `Cache.cache_never_changes_output`, `Cache.clean_build_starts_empty`, `Cache.damaged_file_is_served`, `Cache.digest_collision_serves_other_sprite`, `Cache.failed_store_is_served`, `Cache.holds_empty`, `Cache.lastWrite_undamaged`, `Cache.lookup_returns_last_written`, `Cache.lost_file_is_a_miss`, `Cache.lost_index_is_a_miss`, `Callbacks.purchase_handler_on_map`, `Callbacks.railtype_gui_is_graphics`, `Callbacks.railtype_gui_lost`, `IdMap.loaded_id_taken_again`, `Packets.extra_arguments_dropped`, `Packets.unfinished_text_lost`, `Packets.zero_in_text_misread`, `PropC.ground_delta_misread`, `PropC.industry_multiplier_not_recompilable`, `PropC.parent_at_128_misread`, `PropC.register_order_matters`, `PropC.size_out_of_range_accepted`, `RealSprite.masked_pixels_cropped`, `SpriteData.chunked_overlap_lost`, `SpriteData.overlap_refused`, `SpriteData.zero_offset_accepted`, `TextEsc.plain_text`, `Train.add_part_nine_not_allowed`, `Train.new_train_refused`, `Tree.moved_twice`, `VehicleCallbacks.fast_road_vehicle_properties`, `VehicleCallbacks.own_sound_lost`, `Vox.torn`, `Watch.first_build_window`, `Watch.new_file_window`, `backwards_range_matches`, `cross_device_failure_corrupts_target`, `interrupt_leaves_temporary_file`, `large_number_word_truncated`.
* `propext, Quot.sound`: `Acts.comment_is_action_0`, `Acts.compute_value_dropped`, `Acts.decoded_grfid_short`, `Acts.decoded_set_type_small`, `Acts.different_numbers_different_bytes`, `Acts.first_byte_is_number_iff`, `Acts.nul_in_text_misread`, `Acts.production_is_action_10`, `Acts.relative_other_refused`, `Acts.same_key_bytes_lost`, `Acts.seen_canonical`, `Acts.short_key_misread`, `Alternatives.accepted_iff`, `Alternatives.get_none`, `Alternatives.open_depth_hidden`, `Cache.builds_exact`, `Callbacks.aircraft_property_numbers`, `Callbacks.callback_numbers`, `Callbacks.property_numbers`, `Callbacks.unknown_callback_refused`, `Callbacks.unknown_property_ignored`, `Callbacks.used_given`, `Chain.made_full`, `Chain.made_ok`, `Chain.meaning_deeper`, `Chain.meaning_unique`, `Chain.target_added_late`, `Extract.groupName_inj`, `Extract.groups_differ`, `Extract.unchanged_iff`, `Extract.uniform_group`, `Gif.fizzy_wrong`, `Industry.counted_from_one`, `Industry.long_building_cut`, `Industry.wide_building_grows`, `Info14.description_told`, `Info14.props_nodes`, `Info14.zero_in_name`, `Misc.disable_iterator_does_nothing`, `Misc.disable_table_exact`, `Packets.packet_framed`, `Packets.packet_refused_iff`, `Palette.invisible`, `Palette.quantize_exact`, `Palette.win_to_dos`, `PropC.children_not_written`, `PropC.code_name_agree`, `PropC.dictionary_key_zero`, `PropC.layouts_declared_size`, `PropC.missing_value_refused`, `PropC.normRegs_canonical`, `Purchase.groups_accepted_iff`, `Py.made_again_same_bytes`, `Py.repeated_range_changes_choice`, `Py.switch_made_again`, `RealSprite.crop_same_pixels`, `Remap.from_array_exact`, `Remap.from_function_exact`, `Remap.negative_range_empty`, `Remap.toByte_small`, `ResNames.name_is_new`, `ResNames.name_is_safe`, `ResNames.names_unique`, `ResNames.refused_iff_all_used`, `ResNames.sounds_saved`, `Restore.arrangement_lost`, `Restore.buffer_fails`, `Restore.mirrored_wrong`, `Restore.reshaped_fails`, `Restore.separate_exact`, `Sheet.cells_disjoint`, `Sheet.cells_inside`, `Sounds.added_exact`, `Sounds.contains_exists`, `Sounds.file_exact`, `Sounds.generators_exact`, `Sounds.nothing_lost_iff`, `Sounds.yields_exists`, `SpriteData.chunk_past_data`, `SpriteData.chunk_past_line`, `SpriteData.chunked_shape`, `SpriteData.chunked_sprite_iff`, `SpriteData.reshape_exact`, `SpriteRef.negative_refused`, `SpriteRef.sprite_ref_layout`, `Strings.texts_again`, `Tables.cargo_ids_exact`, `Tables.railtype_actions_encodable`, `Tables.railtype_id_exact`, `Tables.written_railtypes`, `TextEsc.byte_field_iff`, `TextEsc.last_byte_field_iff`, `TextEsc.python_reads_hex`, `Train.add_long_part_without_length`, `Train.add_part_wrong_parity`, `Train.new_train_accepted_iff`, `Train.visual_effect_exact`, `Train.visual_effect_never`, `Tree.colour_key`, `Tree.data_congr`, `Tree.drawn_again`, `Tree.empty_exact`, `Tree.moved_picture`, `Tree.part_without_height`, `Tree.quantized_exact`, `VehicleSprites.shared_graphics_hide_purchase`, `VehicleSprites.shared_handler_hides_purchase`, `VehicleSprites.shared_layout_draws_first`, `VehicleSprites.ship_purchase_added`, `VehicleSprites.table_row`, `VehicleSprites.train_purchase_added`, `Watch.build_follows`, `Watch.build_has_reason`, `Watch.failed_build_window`, `Watch.nothing_missed`, `added_twice_refused`, `circle_accepted`, `decoder_duplicates_accumulator`, `decoder_loses_parameter_of_constant`, `decoder_refuses_computed_call`, `dynamic_parameter_operand_meaning`, `empty_action_breaks_file`, `evalS_eval`, `explicit_id_handed_out`, `extended_byte_form`, `extended_byte_roundtrip`, `failed_write_keeps_target_iff`, `field_is_named`, `fileBytes_inj`, `forward_reference_emitted_late`, `has_variables_iff`, `hash_collision_shows_other_sprite`, `hexStr_injective`, `hexStr_text`, `hex_roundtrip`, `hex_roundtrip_iff`, `id_clash_while_live`, `miscompiles_assignment_before_parameter`, `miscompiles_call_clobbers_spill`, `miscompiles_dynamic_parameter_operand`, `miscompiles_parametrised_table_variable`, `miscompiles_user_register_80`, `mutual_references_dropped`, `need_param_iff`, `nested_7b`, `no_ranges_ignores_default`, `no_temporary_file_iff`, `raw_ref_target_dropped`, `raw_refs_change_the_second_write`, `related_names`, `remembered_ids_clash`, `resource_added_twice`, `self_reference_refused`, `shared_action_emitted_late`, `signedRep_unique`, `sortBy_stable`, `too_deep_refused`, `write_leaves`.
* `propext, Classical.choice, Quot.sound`: `Acts.basic_format`, `Acts.basic_layout_read`, `Acts.builtin_error_fields`, `Acts.comment_decoded_as_definition`, `Acts.comment_never`, `Acts.compute_format`, `Acts.compute_iff`, `Acts.decoded_kind_is_first_byte`, `Acts.decoded_language_small`, `Acts.delta_not_written`, `Acts.description_format`, `Acts.description_iff`, `Acts.error_format`, `Acts.error_message_never_returns`, `Acts.error_never`, `Acts.exact_injective`, `Acts.exact_roundtrip`, `Acts.generic_format`, `Acts.glyphs_never`, `Acts.graphics_map_iff`, `Acts.if_format`, `Acts.import_format`, `Acts.import_sound_iff`, `Acts.info_iff`, `Acts.label_format`, `Acts.label_roundtrip`, `Acts.large_group_misread`, `Acts.layout_format`, `Acts.layout_read`, `Acts.layout_recompile_exact`, `Acts.layout_roundtrip_exact`, `Acts.lspr_format`, `Acts.many_ids_misread`, `Acts.map_format`, `Acts.modify_format`, `Acts.modify_iff`, `Acts.negative_offset_not_recompilable`, `Acts.newSprites_format`, `Acts.no_sets_unreadable`, `Acts.no_strings_unreadable`, `Acts.old_format`, `Acts.palette_key_misread`, `Acts.palette_offset_not_written`, `Acts.production_format`, `Acts.production_never_read`, `Acts.random_format`, `Acts.random_switch_iff`, `Acts.reads_basic`, `Acts.reads_comment`, `Acts.reads_compute`, `Acts.reads_cond`, `Acts.reads_define`, `Acts.reads_description`, `Acts.reads_error`, `Acts.reads_generic`, `Acts.reads_glyphs`, `Acts.reads_import`, `Acts.reads_label`, `Acts.reads_layout`, `Acts.reads_map`, `Acts.reads_modify`, `Acts.reads_newSprites`, `Acts.reads_old`, `Acts.reads_production`, `Acts.reads_random`, `Acts.reads_sets`, `Acts.reads_sounds`, `Acts.reads_texts`, `Acts.reads_value`, `Acts.relative_vehicle_never_returns`, `Acts.replace_new_iff`, `Acts.replace_old_roundtrip`, `Acts.returns_iff_exact`, `Acts.sets_format`, `Acts.short_label`, `Acts.skip_iff`, `Acts.sounds_format`, `Acts.sounds_roundtrip`, `Acts.sprite_group_iff`, `Acts.sprite_sets_iff`, `Acts.sprite_sets_read`, `Acts.strings_iff`, `Acts.text_error_fields`, `Acts.texts_format`, `Alternatives.each_found`, `Alternatives.get_first`, `Cache.unused_entries_evicted`, `Callbacks.aircraft_properties_mixed_up`, `Callbacks.asked_by_name`, `Callbacks.flag_iff_registered`, `Callbacks.flags_exact`, `Callbacks.house_flags_refused`, `Callbacks.make_accepted_iff`, `Callbacks.map_dispatch_exact`, `Callbacks.nothing_generated_iff`, `Callbacks.property_asked_by_name`, `Callbacks.property_purchase_right`, `Callbacks.property_right_iff`, `Callbacks.purchase_dispatch_exact`, `Callbacks.refused_iff`, `Callbacks.roadstop_anim_speed_flags`, `Callbacks.station_rating_flags`, `Chain.class_answers_in_game`, `Chain.empty_layout_gives_position`, `Chain.field_switch`, `Chain.game_decides_as_meant`, `Chain.industry_tile_means`, `Chain.industry_tile_shows`, `Chain.livery_in_game`, `Chain.livery_means`, `Chain.registered_answers_in_game`, `Chain.three_groups_not_drawn`, `Chain.tile_draws_its_sprite`, `Chain.tiles_ok`, `Chain.tree_means`, `Extract.alternatives_apart`, `Extract.beyond_announced`, `Extract.decompiled_sprites`, `Extract.groups_ok`, `Extract.kinds`, `Extract.mixed_out`, `Extract.no_layers`, `Extract.script_sprites`, `Extract.sound_gains_byte`, `Extract.sound_kind`, `Extract.sound_written_iff`, `Gif.saved_iff`, `Gif.shown`, `Globals.negative_offset`, `Globals.setting_read`, `Globals.settings_work`, `Globals.written_iff`, `IdMap.id_answer_exact`, `IdMap.ids_unique_and_stable`, `IdMap.manual_collision_iff`, `IdMap.reserved_ids_avoided`, `IdMap.save_then_load_preserves`, `Industry.building_numbers`, `Industry.generate_refused_iff`, `Industry.generate_refused_square`, `Industry.industry_shows_buildings`, `Industry.layout_tiles`, `Industry.shows_sprite_iff`, `Industry.strips_on_tiles`, `Industry.strips_pairwise`, `Industry.strips_show_whole`, `Industry.tile_sprite`, `Info14.info_learnt`, `Info14.info_told`, `Info14.info_written_iff`, `Misc.base_costs_exact`, `Misc.combine_ranges_exact`, `Misc.combine_ranges_ids`, `Misc.disable_default_iff`, `Numbers.object_size`, `Numbers.part_weight`, `Numbers.road_kmhish`, `Numbers.road_length`, `Numbers.road_mph`, `Numbers.road_plain_exact`, `Numbers.road_speed`, `Numbers.road_speed_exact`, `Numbers.ship_kmh`, `Numbers.ship_kmhish_disagrees`, `Numbers.ship_mph`, `Numbers.ship_writable`, `Numbers.train_mph`, `Numbers.train_weight`, `Numbers.visual_effect`, `Numbers.visual_effect_lost`, `Packets.fields_read_back`, `Packets.first_packet`, `Packets.said_everything`, `Packets.session_received`, `Packets.stream_splits`, `Palette.adjust_exact`, `Palette.best_exact`, `Palette.bright_range`, `Palette.colours_kept`, `Palette.hash_collision`, `Palette.preview_exact`, `Palette.remap_cache_invisible`, `PropC.accepted_tile_encodes`, `PropC.bridge_iff`, `PropC.define_iff`, `PropC.dictionary_iff`, `PropC.eight_bytes_unreadable`, `PropC.industry_layouts_iff`, `PropC.label_list_accepts`, `PropC.property_value_accepts`, `PropC.property_value_iff`, `PropC.property_value_read`, `PropC.read_value_stable`, `PropC.size_pair_accepts`, `PropC.special_check_unreadable`, `PropC.station_iff`, `PropC.station_layouts_read`, `PropC.tile_not_terminator`, `Purchase.group_names_answered`, `Purchase.only_these_vehicles`, `Purchase.purchase_order_applied`, `Purchase.purchase_order_contiguous`, `Purchase.purchase_order_encodable`, `Purchase.variants_attached`, `Py.code_runs`, `Py.printed_call_makes_it_again`, `Py.switch_again_chooses_same`, `Py.value_runs`, `Py.written_decompiled_run_written`, `RealSprite.crop_blank`, `RealSprite.crop_inside`, `RealSprite.crop_keeps_visible`, `RealSprite.crop_minimal`, `RealSprite.sprite_accepted_iff`, `RealSprite.sprite_reads_back`, `RealSprite.store_undone`, `Remap.remap_accepted_iff`, `Remap.remap_encoding`, `Remap.remap_exact`, `Remap.remap_picture`, `Report.report_true`, `Report.stats_exact`, `Report.stats_more_than_file`, `Report.stats_total`, `Report.stats_written`, `ResNames.name_exact`, `ResNames.refused_only_after_tries`, `Restore.part_exact`, `Script.script_runs`, `Script.script_written`, `Sheet.every_sprite_has_cell`, `Sheet.sheet_has_sprites`, `Sounds.generate_again`, `Sounds.generate_twice`, `Sounds.sound_id_is_table_position`, `Sounds.sound_ids_stable`, `Sounds.sound_ids_unique`, `Sounds.sound_refused_iff`, `Sounds.sounds_taken_iff`, `SpriteData.chunked_exact`, `SpriteData.chunked_iff`, `SpriteData.chunked_wellformed_iff`, `SpriteData.decompress_iff`, `SpriteData.malformed_accepted_iff`, `SpriteData.plain_iff`, `SpriteData.plain_sound`, `SpriteData.wellformed_exact`, `SpriteRef.sprite_ref_accepts`, `SpriteRef.sprite_ref_injective`, `SpriteRef.sprite_ref_roundtrip`, `SpriteRef.sprite_ref_total`, `SpriteSheet.cut_out`, `SpriteSheet.layout`, `SpriteSheet.sheet_exact`, `Strings.defined_by_first`, `Strings.definitions_exact`, `Strings.global_runs_into_persistent`, `Strings.handle_stands_for_text`, `Strings.handles_exact`, `Strings.ids_exact`, `Strings.import_forgets_texts`, `Strings.item_found_iff`, `Strings.kinds_clash_iff`, `Strings.made_up_name_taken`, `Strings.same_id_iff`, `Strings.texts_stay`, `Strings.unnamed_handles_iff`, `Syntax.accepted_text_same_size`, `Syntax.decoded_linear`, `Syntax.decoded_made`, `Syntax.decompiled_text_read_back_iff`, `Syntax.digit_iff`, `Syntax.format_injective`, `Syntax.format_parse`, `Syntax.format_parse_lines`, `Syntax.hexDig_iff`, `Syntax.line_accepted`, `Syntax.lines_accepted`, `Syntax.nameChar_iff`, `Syntax.nameStart_iff`, `Syntax.recompiled_needs_parameter_variable`, `Syntax.recompiled_refuses_modifiers`, `Syntax.recompiled_text_is_same_program`, `Syntax.retext_changes_meaning`, `Syntax.source_meaning`, `Syntax.text_hasbit`, `Syntax.text_loses_comparison`, `Syntax.text_loses_mul_div`, `Syntax.text_loses_or_and`, `Syntax.text_loses_shift_and`, `Syntax.text_named_parameter`, `Syntax.text_not_hasbit`, `Syntax.text_read_back_iff`, `Syntax.text_type_three`, `Syntax.text_unsigned_division`, `Tables.cargo_positions_iff`, `Tables.map_cargo_labels_iff`, `Tables.railtype_fallback`, `Tables.railtype_known_iff`, `Tables.railtype_positions_iff`, `TextEsc.compile_iff`, `TextEsc.malformed_accepted`, `TextEsc.malformed_refused`, `TextEsc.means_unique`, `TextEsc.text_exact`, `Train.add_part_accepted_iff`, `Train.add_part_by_shortening`, `Train.add_part_exact`, `Train.consist_is_parts`, `Train.consist_length`, `Train.new_train_exact`, `Train.new_train_length`, `Train.weight_split`, `Tree.cache_is_invisible`, `Tree.changed_by_hand`, `Tree.debug_zoom_fails`, `Tree.dumps_injective`, `Tree.fingerprint_identifies`, `Tree.kept_object`, `Tree.mask_accepted_iff`, `Tree.mask_pixels`, `Tree.part_of_picture`, `Tree.time_kept`, `VehicleCallbacks.asked_exactly`, `VehicleCallbacks.map_answer`, `VehicleCallbacks.purchase_answer`, `VehicleCallbacks.set_later`, `VehicleCallbacks.setup_is_make`, `VehicleCallbacks.setup_total`, `VehicleCallbacks.vehicle_refused_iff`, `VehicleSprites.livery_chosen`, `VehicleSprites.part_code_meaning`, `VehicleSprites.part_code_read`, `VehicleSprites.part_livery_drawn`, `VehicleSprites.purchase_drawn`, `VehicleSprites.purchase_shown`, `VehicleSprites.ship_livery_drawn`, `VehicleSprites.table_row_drawn`, `VehicleSprites.train_livery_drawn`, `Vox.house_zooms`, `Vox.lower_edges`, `Vox.nearest_voxel`, `Vox.no_gaps`, `Vox.placed`, `Vox.reads_file`, `Vox.reads_model`, `Vox.zoom4_rows`, `Watch.nothing_old`, `action_and_number_words_differ`, `action_word_roundtrip`, `added_action_draws`, `added_first_needed`, `all_emitted_once`, `callback_code`, `callbacks_without_variables`, `catches_forward`, `caught_eq_choose_iff`, `chain_value`, `comparison_means`, `comparison_value`, `compile_accepts`, `compile_returns_its_registers`, `compiled_code_keeps_live_registers`, `compiled_comparison`, `compiled_program_computes_source`, `compiled_program_meaning`, `copy_is_exposed`, `covered_by_unreferenced`, `decoded_code_keeps_meaning`, `decompiled_again`, `decompiled_again_own`, `emitted_exactly`, `extended_byte_accepts`, `extra_info_codes`, `features_exactly`, `file_events`, `files_loaded_when_used`, `hexVal_iff`, `hex_capitals`, `hex_limited_iff`, `industry_codes`, `live_ids_distinct`, `live_registers_distinct`, `livery_code`, `name_computes_field`, `name_is_field`, `no_data_stored_twice`, `nthDay_to_days`, `number_word_roundtrip`, `out_of_ids_refused`, `own_action_draws`, `own_names_win`, `ranges_select_user_branch`, `raw_target_first`, `real_ids_bijective`, `real_ids_distinct`, `references_select`, `related_random_bits_differ`, `related_town_refused`, `reserve_refused_iff_exhausted`, `reserved_register_is_fresh`, `resolve_accepted_iff`, `right_schedule_iff`, `shown_iff_hash_distinguishes`, `simplify_preserves_meaning`, `simplify_recognises_lowering`, `switch_decodes`, `switch_framed`, `switch_runs_code`, `switch_runs_source`, `table_accepted_iff`, `table_entries`, `table_exact`, `taken_id`, `target_at_any_moment`, `target_old_or_complete`, `targets_first`, `targets_first_iff`, `targets_have_different_ids`, `textEsc_hexVal_iff`, `to_days_injective`, `to_days_next`, `to_days_strict_mono`, `unadded_action_draws`, `utoi32_spec`, `utoi8_spec`, `variable_register_stable`, `watched_files_always_empty`, `watched_files_complete_iff`, `write_again`, `write_repeatedly`, `write_success`, `write_twice`, `written_file_bytes`, `written_file_reads_back`, `written_file_well_formed`.
