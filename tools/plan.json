{
 "more": [
  "| actions.py: BasicSpriteLayout, AdvancedSpriteLayout; decompile.py: read_sprite_layout | Actions | C55 |",
  "| parser.py: lexer, grammar with precedences, `format` of every node | Syntax | C56, C57 |",
  "| lib/industry.py: Building, layouts | Industry | C59, C60 |",
  "| actions.py: `py()` and constructors of the action classes | Py | C66 |",
  "| va2vars.py: tables; actions.py: Switch.parsed_code | VarTables | C67 |",
  "| lib/rv.py, ship.py, train.py, vehicle.py: sprites and liveries | VehicleSprites, LiveryObjs | C68 |",
  "| lib/rv.py, ship.py, train.py, object.py: speeds, weights, effects, sizes | VehicleNumbers | C69 |",
  "| grf.py: NewGRF arguments, parameters | Info | C70 |",
  "| sprites.py: sprite classes, fingerprints; grf.py 551-613 | SpriteTree | C71, C72 |",
  "| vox.py: VoxReader, VoxFile | Vox | C73, C74 |",
  "| utils.py: watch_func, async_compile | Watch | C75 |",
  "| colour.py: palettes, brightness; sprites.py: fix_palette, quantize, make_rgba_image | Palette | C76, C77 |",
  "| decompile.py: ParsingContext, save_graphics_resources, GraphicsSpriteGen; sprites.py: RAWSound | Extract | C78, C79 |",
  "| lib/train.py, lib/vehicle.py: global settings | Globals | C80 |",
  "| sprites.py: restore_rgba_image | Restore | C81 |",
  "| sprites.py: save_gif | Gif | C82 |",
  "| grf.py: SpriteSheet | SpriteSheet | C83 |",
  "| sprites.py: AlternativeSprites | Alternatives | C84 |",
  "| lib/train.py, lib/rv.py, lib/ship.py, lib/vehicle.py: callbacks set by the classes | VehicleCallbacks | C85 |",
  "| grf.py report counters, decompile.py statistics | Report | C87 |",
  "| actions.py get_refs and get_data of the linked objects, as a whole file | Chain | C88 |",
  "| lib/callback.py, the objects of the manager in a file | CallbackObjs | C89 |",
  "| lib/vehicle.py `_gen_purchase_sprites` with lib/callback.py, resolved | Refs, VehicleSprites | C90 |",
  "| lib/industry.py, the switches of the tile as objects | IndustryObjs | C91 |"
 ],
 "dev": [
  "* Tile layouts: palette offsets and bounding box registers are not written, a parent at height 128 is misread, negative offsets and basic layouts are read back in a form the constructor refuses (C55).",
  "* Decompiled text: `(a | b) & c`, `(a << b) & c`, `a * (b / c)` and `a < (b < c)` are printed without brackets and mean something else when compiled again; unsigned division, bit tests and named variables with parameters are printed in a form the grammar does not have; modifiers of type 3 are lost (C56, C57).",
  "* Callbacks: of the properties of aircraft only `loading_speed` is registered under its number (asked for its price, an aircraft answers with the handler for its speed; `primary_cargo_capacity` and `cargo_age_period` are unknown, their table keys being given twice); the flag of a road stop's `anim_speed` (3) announces two other callbacks; the visual effect of road vehicles and ships is never announced (C42).",
  "* Industry layouts: the length of a building is taken for both directions (lib/industry.py 142-143), so only square buildings are laid out as drawn; the switch counts layouts from 0 while the variable counts from 1 (C60).",
  "* Scripts: lines of tile layouts (`SpriteRef`) and of definitions with bridge, industry or station layouts use names the script does not import and cannot be run; a switch with a range given twice chooses differently after decompiling (C66).",
  "* Variables: the decompiler names the variables of a related object from the table of the feature itself while the compiler uses that of the related feature; names of variables 60..7F without a fixed parameter are compiled without the parameter byte the game expects (C67).",
  "* Callbacks of canals, cargos, airports, airport tiles, road types and tram types can never be written: the switch over `current_callback` is refused since these features have no variables (C42).",
  "* Layouts shared by two vehicles draw the sprites of the first; a `SpriteTable` which is not a `VehicleSpriteTable` has no width and cannot be written (C68).",
  "* `Ship.kmhish` gives a quarter of `Ship.kmh`; ships accept speeds up to 255 km/h (mph) but only 127 (79) can be written; `Train.visual_effect_and_powered` loses the effect when wagon power is on, the default; `Train.add_articulated_part` uses the train's weight instead of the weight given (C69).",
  "* A lowest compatible version without a version is ignored by the game; more than 128 parameters are written (up to 255) but the game skips the rest (C70).",
  "* `write(debug_zoom_levels=True)` fails with a `KeyError` for every file with a sprite; `WithMask`, `MoveSprite` and the other wrappers do not notice attributes changed after construction when looking into the cache; a `FileSprite` without a size keeps the size of the first picture it was drawn from (C71).",
  "* Voxel houses: depths are any integers (floats in the code), the palette functions are parameters, `VoxTrainFile` is not modelled. With numpy 2 a model wider than 255 is refused, with numpy 1 coordinates wrap.",
  "* Watch: times are left out; paths are taken to be resolved, `watchdog` reports exactly the modifications in watched directories; a build is the files it looks at and its end.",
  "* Palettes: the distance in oklab (floats), Python's `hash` and Pillow's `quantize` are parameters. `make_rgba_image` is modelled pixel by pixel.",
  "* Decompiled sounds have one byte too many (the zero after the name is not counted, decompile.py 1252); sounds of old containers are lost (`NameError`); recolour sprites of version 2 files are decoded as Action 0 (C78).",
  "* Decompiled graphics: a script for a sprite without layers uses `EMPTY_SPRITE`, which is not imported; an 8bpp sprite in a group with a 32bpp one becomes invisible in colour; alternatives are added as sprites of their own, which shifts everything after them; sprites with opacity but no colours are dropped (C79).",
  "* Watch: the list of files `write` returns is always empty (C51), so in the code as it is only the script is watched; C75 takes the list as arbitrary.",
  "* Negative depot offsets raise `struct.error` (C80). The game keeps flag 3 of the misc flags per file, which the specification does not distinguish.",
  "* `restore_rgba_image` ignores the steps of the layers when the picture has their size, so `picture[:, ::-1]` is written unmirrored; it raises `ValueError` for parts of reshaped buffers (C81). C44 and C54 take the layers as values.",
  "* `save_gif` raises `ValueError` for sprites with radio tower colours (a pair is unpacked as a triple) and for sprites without animated colours; fizzy drinks are never animated (the slice `has_colors[-5:0]` is empty) (C82).",
  "* `VoxTrainFile.make_sprites` fails with its default colour functions (`darken`, `brighten` do not exist), so it is not modelled.",
  "* A road vehicle of at least 0x400 (precise units) with a callback for any single property cannot be generated (`fast_road_vehicle_properties`).",
  "* An action object used in two files brings its id from the first into the second, where a new object can get the same id (`remembered_ids_clash`).",
  "* The statistics of the decompiler count four bytes too many for each pseudo sprite (`l + size_bytes * 2 + 1`): `stats_total`, `stats_more_than_file`.",
  "* The same handler for two purchase callbacks, or the vehicle's graphics inside one, gives another action the id of the purchase layout while it is in use; the purchase list then shows that layout (`shared_handler_hides_purchase`, `shared_graphics_hide_purchase`).",
  "* The switch of an industry layout without buildings has no ranges and gives the position of the tile instead of the empty sprite's number (`empty_layout_gives_position`)."
 ],
 "rows": [
  [
   "C01-C06",
   "functions of common.py / SpriteRef / Ref on Int and bytes",
   "round trips for all values with omega and bit lemmas; dates against an independent calendar by induction on days"
  ],
  [
   "C07-C11",
   "encoder and reader of every property format on byte lists",
   "one round trip theorem over all formats with arbitrary trailing bytes, by induction on lists and layouts; acceptance characterised per format"
  ],
  [
   "C12-C20",
   "get_data of each action and the matching decode_action*",
   "round trip per action; first-byte theorem over the sum of all actions; counterexample theorems for the excluded fields"
  ],
  [
   "C21-C24",
   "AST, compile, registers, simplify; the VarAction2 machine as specification",
   "compiler correctness by induction on expressions with a register frame invariant, between a source level and a machine level world; procedures are linked by induction over the list of definitions (Props/Link.lean), so nothing is assumed of the registers a callee changes; decoder as a simulation"
  ],
  [
   "C25-C26",
   "Switch.get_data and the decoder loop",
   "list induction, signed/unsigned arithmetic"
  ],
  [
   "C27-C28, C58",
   "both phases of resolve_refs as a traversal with id heap and refcounts",
   "traversal invariants over all graphs C27 exactly (`Proofs/Refs4.lean`, `Props/RefsExact.lean`): the first phase is followed without assumptions on the order of adding or on raw references; the roots of the traversal are exactly the unreferenced actions. C28 and C58 (`Props/RefsIds.lean`, `Props/RefsOrder.lean`) from the history of the traversal: an action's owner, the first of its users, and the invariant that an id is reused only after the last user of its previous owner was visited."
  ],
  [
   "C29-C32",
   "_do_write, _enumerate_sprites, the reader loop",
   "parse-back by induction over the sprite list, schedule invariants"
  ],
  [
   "C33, C51",
   "write as a state machine over a file system with an arbitrary failure point",
   "case analysis over all failure points"
  ],
  [
   "C34-C38, C52",
   "IDMap, sounds, StringManager, SpriteCache, tables, add/generate as state machines",
   "invariants over arbitrary operation lists"
  ],
  [
   "C39",
   "the generated actions and an interpreter of actions 6/7/9/D/0",
   "induction on fallback lists"
  ],
  [
   "C40-C43, C53",
   "lib generators; the game's sort and variant properties as specification",
   "induction over item lists and nested groups"
  ],
  [
   "C44-C48, C54",
   "images as matrices; crop, write, read, LZ77 and chunk decoding, sheets, names",
   "exact pixel-level specifications, induction over token streams and cells"
  ],
  [
   "C49-C50",
   "packets, log lines, text escapes",
   "parse-back by induction over streams"
  ],
  [
   "C55",
   "constructor, writer and reader of both layouts on byte lists",
   "round trip by induction on the list of sprites; exact criterion (iff) for recompilation; counterexamples"
  ],
  [
   "C56",
   "lexer, shift-reduce machine with the precedence table, printer on lists of characters",
   "printer output = token list (induction on the expression, lexer lemmas with an arbitrary safe continuation); the machine on these tokens reaches a state that reduces as the expression does (induction, arbitrary stack and continuation); exactness: every printable expression is a tree of tokens, the machine either refuses it or produces a value whose own tokens are the ones read, and a well-bracketed token list has one tree only"
  ],
  [
   "C57",
   "composition of the models of C24, C56, C21",
   "decoded code is nested to the left (induction over the decoder loop); each faithful line compiles to one run of operations that does what the decoded expression does in every machine (induction over the printed grammar, no registers are taken); acceptance by the same induction; then C24 and C56"
  ],
  [
   "C59, C60",
   "`Model.Industry`: the strips cut from a building's image (offsets, crops), the layout property, the chain of switches on layout and tile position; a picture is the function from pixels to image points",
   "strips partition the pixel columns and rows (arithmetic on the cut, induction over tiles); the switch is looked up by its unique key (the numbers of the tiles are pairwise different); the picture of a layout is the union over its buildings"
  ],
  [
   "C61",
   "`Model.Actions`: the encoders; `Spec.ActionFormat`: each action as a list of fields (byte, signed byte, word, double word, text) with the numbers it holds, independent of the encoders",
   "each encoder is a concatenation of packed fields; a lemma turns such a concatenation into `WrittenAs` (all fit, bytes in order); flags by arithmetic (or with a power of two is addition when the bit is clear)"
  ],
  [
   "C62",
   "`Model.Refs`: both passes with every way they can fail",
   "induction on the recursion limit with a rank of the actions; invariants of the second pass: reference counters against the actions placed, free ids plus actions with ids make at least 255, features only ever set to that of the current root"
  ],
  [
   "C63",
   "`generate_python` with regard to names and references: the two loops, the names, what is printed for a reference; running the script (names assigned once in order, an unassigned name is an error)",
   "induction over the lines with an invariant; C62, C27 and C28 for writing the result"
  ],
  [
   "C64",
   "the decoders `decode_action1` to `decode_action12` with `read_random_switch`, `read_sprite_layout`, as in C12-C20",
   "a small language of documented forms (Spec/ReadFormat.lean); each decoder read field by field, both directions"
  ],
  [
   "C65",
   "`Model.Define`, `Model.PropCodec`: `decode_action0`, `read_property` and every `Property.read`, old station layouts included",
   "a relation between values and the bytes that state them (Spec/PropForm.lean); each reader field by field in both directions; dictionaries and layouts by induction over the bytes"
  ],
  [
   "C66",
   "`Model.Py`: `py()` of every action class as an expression of Python, evaluation of such expressions, the signatures and constructors",
   "for each class evaluation of what is printed is computed; the decoders are shown to make only accepted fields; texts of switches by the lexer (blanks) of C56"
  ],
  [
   "C67",
   "`Model.VarTables`: the tables of `grf/va2vars.py` as data, the choice of the table for a switch, and the code of a switch from its text",
   "facts about the entries decided over the whole tables; what a name computes by the encoding of accesses; decompiled code by C24, C56 and C57 with the tables of both scopes"
  ],
  [
   "C68",
   "`Model.VehicleSprites`: the sprites of vehicles in the order they are added; resolution from `Model.Refs`",
   "the exact output of resolution gives, for every action, the items before its place in the file; sprite sets by a small separate specification (`Spec.SpriteSets`); the switch over the liveries by its meaning (C88) and in the game by C89"
  ],
  [
   "C69",
   "`Model.VehicleNumbers`: speeds, weights, effects and sizes, with the two tables of ships as data",
   "integer arithmetic; tables decided over all 256 entries"
  ],
  [
   "C70",
   "`Model.Info`: `NewGRF.__init__`, the two functions adding parameters and the head of `generate_sprites`; `Spec.InfoSpec`: format of the block and what the game makes of each node",
   "mutual induction over the tree of properties (bytes → nodes), then folding the nodes; exact acceptance by the same induction"
  ],
  [
   "C71",
   "`Model.SpriteTree`: the sprite classes with their constructors, drawing, fingerprints and resource files, `get_sprite_fingerprint`, the text of `json.dumps`, `get_sprite_data` over `Model.Cache`",
   "injectivity of the text (mutual induction with what follows), then of the fingerprint together with the list of files (induction over sprites, with what follows); invariant \"every cache file is what drawing gives for all sprites with that key\" over builds"
  ],
  [
   "C72",
   "`Model.SpriteTree` (drawing)",
   "pixel by pixel from the layers; the header by reading it back"
  ],
  [
   "C73, C74",
   "`Model.Vox`: `VoxReader`, `VoxFile._load`, `make_house_sprite`; `Spec.VoxSpec`: the file format, the pixels of a cube",
   "chunk by chunk for reading; invariant of the depth buffer over the list of voxels; closed form of the 4x picture by induction over cells and rows; no gaps from the parity of cubes' corners and the order of depths"
  ],
  [
   "C75",
   "`Model.Watch`: transition system of the watch loop, the observer's callback and the files",
   "invariant between the starts of two builds over all steps; histories by induction from the end"
  ],
  [
   "C76",
   "`Model.Palette`: the palettes as literals, `fix_palette` with its global cache, `quantize`, `oklab_find_best_colour`",
   "uniqueness of the palette's colours by kernel computation over all entries; soundness of the cache as invariant over sequences of pictures; argmin by induction"
  ],
  [
   "C77",
   "`Model.Palette`: `openttd_adjust_brightness`, `make_rgba_image`",
   "packed products as sums without carry, then linear arithmetic"
  ],
  [
   "C78",
   "`Model.Extract`: `ParsingContext` and what the decoders of actions do to it, `RAWSound`, reading of sounds",
   "induction over the parts with the context as state; the announcing actions from C64"
  ],
  [
   "C79",
   "`Model.Extract`: grouping, sheets (C47), `GraphicsSpriteGen.py`, and running the printed statements",
   "dictionaries of lists as filters; uniqueness of paths and variable names; cells of the sheets (C47); invariant between the names given out and the variables assigned, over the list of placeholders"
  ],
  [
   "C80",
   "`Model.Globals`: the three classes, on top of Action D (C62) and the property codec (C10)",
   "exact bytes of each setting, then induction over the list of settings with the state of a small game"
  ],
  [
   "C81",
   "`Model.Restore`: numpy views, `restore_rgba_image`, slices, `reshape` and `concatenate`",
   "strides: division of the offset of a part gives back row and column; pixel grids as lists"
  ],
  [
   "C82",
   "`Model.Gif`: `init_cycle`, the palette and remapping of each frame; `Spec.Animation`: palette animation of the game and a viewer of animated pictures",
   "invariant over the ranges set up (their entries of the palette stay), induction over time; cycle lengths are powers of two, so they divide the longest; periodicity by arithmetic"
  ],
  [
   "C83",
   "`Model.SpriteSheet`: both loops of `make_image`, with the objects' places as state",
   "closed forms for rows and columns by induction over the loops, prefix sums; drawing order: later sprites are apart"
  ],
  [
   "C84",
   "`Model.Alternatives`: the constructor and `get_sprite`",
   "counting different pairs; the first index with a property"
  ],
  [
   "C85",
   "`Model.VehicleCallbacks`: the assignments of the classes to the callback manager and the switches they make",
   "setting later equals giving at construction (commuting dictionary updates), then the exact dispatch theorems of C42 with the merged dictionary; in the game: the theorem of C89 for that dictionary, and the meaning of the classes' switches"
  ],
  [
   "C86",
   "`Model.Refs` with two object stores: before the first write and before a later one",
   "simulation between the two traversals: the same free ids (ids in the pool that are not reserved) although pool and reserved set differ; every id met in the second traversal is the final one of the first because assigned ids never change; sounds and texts: what has an id is found in the table, by induction over nested generators and requests"
  ],
  [
   "C87",
   "`Model.Report`: the counters beside the loop of `Model.Container`, the statistics beside the context of `Model.Extract`",
   "loop invariant linking counters, set of actions done and real sprites in the file; the real-sprite section is told apart by its bytes, so the invariant meets that of the container; sums over the dictionary of statistics"
  ],
  [
   "C88",
   "`Model.Chain`: objects pointing to objects, their `get_refs` and bytes after resolution; `Spec.GameChain`: the game loading and running groups; `Spec.ChainSem`: what the objects mean",
   "composition of C21/C22 (code), C25/C26 (switch bytes), C27/C28/C58 (resolution), C29 (container): each id means its target when an action is loaded because nothing with the same id comes between; simulation by induction on the depth; subroutine names and numbers are exchanged by a renaming lemma"
  ],
  [
   "C89",
   "`Model.CallbackObjs`: the trees of `Model.Callbacks` as objects of a file",
   "composition of C42 (which handler), C67 (what the named fields read) and C88 (from objects to the game): a switch over a field means what is found under the field's value"
  ],
  [
   "C90",
   "`Model.Refs`, `Model.VehicleSprites`",
   "the traversal of a map visits the layout added for it first (`Lead`, from exact lemmas about `ordered_refs` and `unordered_refs`), so the order of the traversal is that of the output; then as C28"
  ],
  [
   "C91",
   "`Model.IndustryObjs`, `Model.Industry`",
   "the switches as objects of C88; the meaning of a switch over a field of either scope (`var_switch`), composed with `tile_sprite` (C60); the code texts are parsed by the model of the parser"
  ]
 ]
}