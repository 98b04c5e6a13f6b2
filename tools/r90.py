import sys
sys.path.insert(0,'/tmp/gen'); from reg import reg
P=r'''
p("C90","The purchase list shows the purchase sprite","A vehicle with a purchase sprite adds a layout for it to the file ahead of its map action. In the file as resolved, the reference to this layout - in the map, or as default of the switch over the purchase callbacks - selects this layout and no other action with the same id, and the layout draws the purchase sprite. More generally every reference in the file selects its target when the added actions others refer to are each added for the next action. Boundary: the switches and handlers of the vehicle's map are met there for the first time; a handler given for two purchase callbacks, or graphics used by a purchase callback, can make the purchase list show another layout.","every acyclic reference graph, every list of added sprites in which each added action nothing else refers to, or is added for the next, every number of vehicles, callbacks and handlers","whether an id is still free depends on the whole traversal and on what is emitted between a target and its users; a test sees one graph",["grf/lib/vehicle.py:Vehicle._gen_purchase_sprites","grf/lib/callback.py:CallbackManager.make_switch","grf/lib/ship.py:Ship.get_sprites","grf/lib/train.py:Train.get_sprites","grf/grf.py:BaseNewGRF.resolve_refs"])
'''
M=r'''
c("C90","proved",["references_select","VehicleSprites.purchase_shown","VehicleSprites.ship_purchase_added","VehicleSprites.train_purchase_added","VehicleSprites.shared_handler_hides_purchase","VehicleSprites.shared_graphics_hide_purchase"],"under the boundary written in the statement (AddedFine, AddedFor), with two proved counterexamples for it and id_clash_while_live (C28) for actions added earlier than for the next; the user sets no ids (explicit_id_handed_out, C28)")
'''
reg(P,M,
 rows=[['C90','`Model.Refs`, `Model.VehicleSprites`','the traversal of a map visits the layout added for it first (`Lead`, from exact lemmas about `ordered_refs` and `unordered_refs`), so the order of the traversal is that of the output; then as C28']],
 more=['| lib/vehicle.py `_gen_purchase_sprites` with lib/callback.py, resolved | Refs, VehicleSprites | C90 |'],
 dev=['* The same handler for two purchase callbacks, or the vehicle\'s graphics inside one, gives another action the id of the purchase layout while it is in use; the purchase list then shows that layout (`shared_handler_hides_purchase`, `shared_graphics_hide_purchase`).'],
 imports=['Verif.Proofs.Refs5','Verif.Props.RefsOwn','Verif.Props.PurchaseShown'])
