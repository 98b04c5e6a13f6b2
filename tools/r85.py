import sys
sys.path.insert(0,'/tmp/gen'); from reg import reg
P=r'''
p("C85","Vehicles answer what their class promises","For every train, road vehicle and ship, whatever callbacks the user registered: on the map the vehicle names livery i for cargo subtype i (0x400 beyond the last), plays the given sounds, lists its articulated parts in order from 1 on and ends the list with 0x7FFF, and a fast road vehicle answers its speed; every other callback is answered as the user registered it. In the purchase list it answers the additional text, the articulated parts and the speed, then what the user registered for the list, then the purchase sprite or the graphics. The flags tell the game to ask for exactly the callbacks the user set or registered or the class answers. Setting a callback after construction is the same as passing it to the constructor; what the user passed under a name the class uses is replaced. Generation is refused exactly without graphics, or with handlers of properties together with a property callback, which a fast road vehicle always has.","all user registrations, liveries, sounds, parts, texts, speeds; all callbacks, arguments and cargo subtypes","the user's registrations and the class's are combined in one dictionary in an order that tests sample only for a few combinations",["grf/lib/train.py:Train._set_callbacks","grf/lib/rv.py:RoadVehicle.get_sprites","grf/lib/rv.py:RoadVehicle._set_callbacks","grf/lib/ship.py:Ship.get_sprites","grf/lib/vehicle.py:Vehicle._set_callbacks","grf/lib/callback.py:CallbackDescriptor.__set__"])
'''
M=r'''
c("C85","proved",["VehicleCallbacks.set_later","VehicleCallbacks.setup_is_make","VehicleCallbacks.setup_total","VehicleCallbacks.map_answer","VehicleCallbacks.purchase_answer","VehicleCallbacks.vehicle_refused_iff","VehicleCallbacks.asked_exactly","VehicleCallbacks.fast_road_vehicle_properties","VehicleCallbacks.own_sound_lost"],"sound_effects with single numbers as keys; text ids, part ids and the speed value are the results of C36, C34 and C69; articulated parts beyond the 255th are never asked for")
'''
reg(P,M,
 rows=[['C85','`Model.VehicleCallbacks`: the assignments of the classes to the callback manager and the switches they make','setting later equals giving at construction (commuting dictionary updates), then the exact dispatch theorems of C42 with the merged dictionary']],
 more=['| lib/train.py, lib/rv.py, lib/ship.py, lib/vehicle.py: callbacks set by the classes | VehicleCallbacks | C85 |'],
 dev=['* A road vehicle of at least 0x400 (precise units) with a callback for any single property cannot be generated (`fast_road_vehicle_properties`).'],
 imports=['Verif.Model.VehicleCallbacks','Verif.Props.VehicleCallbacks'])
