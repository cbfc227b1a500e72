{"id": "C01", "title": "Key encode/decode round trip", "statement": "For every depth from 0 to 16, all coordinates x, y, z in [0, 2^depth) and every batch index b in [0, 32768): key2xyz(xyz2key(x, y, z, b, depth), depth) returns exactly (x, y, z, b); without a batch argument the decoded batch index is 0.", "quantifier": "all depths 0..16, all in-range coordinates, all legal batch indices", "why_tests_cant": "the domain has 2^63 points; the repo samples 10000 at depth 16 only", "anchors": ["ocnn/octree/shuffled_key.py:xyz2key", "ocnn/octree/shuffled_key.py:key2xyz", "ocnn/octree/shuffled_key.py:KeyLUT"]}
{"id": "C02", "title": "Key decode/encode round trip", "statement": "Every legal key (batch field in [0, 32768), 48-bit field smaller than 8^depth) is reproduced exactly by decoding it with key2xyz and re-encoding the result with xyz2key at the same depth, so keys and (cell, batch) pairs are in bijection.", "quantifier": "all depths 0..16 and all legal 63-bit keys", "why_tests_cant": "2^63 keys", "anchors": ["ocnn/octree/shuffled_key.py:xyz2key", "ocnn/octree/shuffled_key.py:key2xyz"]}
{"id": "C03", "title": "Table-driven encoder equals the mathematical Morton code on all int64 inputs", "statement": "For every depth 0..16 and all 64-bit coordinates, including negative and oversized ones, xyz2key returns the z-order (Morton) interleaving of the coordinates reduced modulo 2^depth, with the batch index in the bits from 48 up; i.e. the 8-bit look-up tables implement the bit-by-bit definition.", "quantifier": "all depths 0..16, all int64 coordinate triples, all batch indices", "why_tests_cant": "the look-up tables are combined in two depth-dependent branches (depth<=8 and depth>8); tests use depth 16 only", "anchors": ["ocnn/octree/shuffled_key.py:xyz2key", "ocnn/octree/shuffled_key.py:KeyLUT.xyz2key"]}
{"id": "C04", "title": "Keys are hierarchical", "statement": "For every cell at depth d+1 the key with its last three bits dropped (inside the 48-bit field) is the key at depth d of the cell (x//2, y//2, z//2) of the same batch, and the dropped bits equal 4*(x%2)+2*(y%2)+(z%2).", "quantifier": "all depths 0..15 and all cells", "why_tests_cant": "needs every cell", "anchors": ["ocnn/octree/shuffled_key.py:xyz2key", "ocnn/octree/octree.py:Octree.build_octree", "ocnn/octree/octree.py:Octree.octree_grow"]}
{"id": "C05", "title": "Key order is batch-major and depth-first", "statement": "For legal keys at one depth: a node with smaller batch index always sorts before one with a larger batch index; and if the ancestor cell of one node sorts strictly before the ancestor cell of another node then so do the nodes, so every subtree occupies a contiguous range of the sorted keys.", "quantifier": "all depths, all pairs of legal keys and all ancestor levels", "why_tests_cant": "pairs of 63-bit keys", "anchors": ["ocnn/octree/shuffled_key.py:xyz2key", "ocnn/octree/octree.py:Octree.build_octree"]}
{"id": "C06", "title": "Documented key limits are tight", "statement": "At the first value outside the documented limits the round trip really fails: batch index 32768 encodes to a negative key that decodes to a different batch index; a coordinate equal to 2^depth is silently encoded as coordinate 0; and for every depth above 16 some coordinates inside [0, 2^depth) make xyz2key raise an error (an index error up to depth 71, above which the bit mask itself does not fit an int64).", "quantifier": "all depths (coordinate limit, depth limit), all cells (batch limit)", "why_tests_cant": "limit behaviour at every depth", "anchors": ["ocnn/octree/shuffled_key.py:xyz2key", "ocnn/octree/shuffled_key.py:key2xyz"]}
{"id": "C07", "title": "build_octree creates exactly the occupied nodes", "statement": "For every point cloud with coordinates in [-1, 1) (any size, duplicates allowed, any point order), every depth D in 1..16, every full_depth <= D and every batch size, build_octree succeeds and the non-empty nodes at each depth d in [full_depth, D] are exactly the cells of side 2^(1-d) that contain at least one input point of that sample; a depth-d node exists below full_depth iff its parent is non-empty.", "quantifier": "all point clouds in range, all depths, all full depths, all batch sizes", "why_tests_cant": "the repo checks five stored shapes", "anchors": ["ocnn/octree/octree.py:Octree.build_octree", "ocnn/octree/octree.py:Octree.octree_grow_full"]}
{"id": "C08", "title": "build_octree returns each point's leaf", "statement": "The index vector returned by build_octree has one entry per input point and entry i is the position, among the non-empty finest nodes, of the node whose cell contains point i.", "quantifier": "all point clouds in range", "why_tests_cant": "returned index never checked by tests", "anchors": ["ocnn/octree/octree.py:Octree.build_octree"]}
{"id": "C09", "title": "Octree layer invariants after building", "statement": "After build_octree: at every depth the keys are strictly increasing; nnum is the number of nodes; nnum_nempty the number of nodes with a non-negative child index; child indices of the non-empty nodes are 0,1,2,... in node order and -1 for empty nodes; the children of the i-th non-empty node are exactly nodes 8i..8i+7 of the next layer, in child-code order.", "quantifier": "all point clouds, depths, full depths, batch sizes", "why_tests_cant": "structural invariant over all inputs", "anchors": ["ocnn/octree/octree.py:Octree.build_octree", "ocnn/octree/octree.py:Octree.nempty_mask", "ocnn/octree/octree.py:Octree.key"]}
{"id": "C10", "title": "Full layers are dense", "statement": "For every d <= full_depth the layer contains every one of the 8^d cells of every sample exactly once, ordered by sample and then by key; all nodes of layers with d < full_depth are marked non-empty.", "quantifier": "all octrees obtained from build_octree or init_octree", "why_tests_cant": "all sizes", "anchors": ["ocnn/octree/octree.py:Octree.octree_grow_full", "ocnn/octree/octree.py:init_octree"]}
{"id": "C11", "title": "Leaf signals are averages over the points of the leaf", "statement": "After build_octree the stored position (feature) of each non-empty finest node is the arithmetic mean of the rescaled positions (features) of exactly the input points lying in that node; the total over nodes of count times mean equals the total over all points.", "quantifier": "all point clouds in range, all feature widths", "why_tests_cant": "tests only check nodes holding a single point", "anchors": ["ocnn/octree/octree.py:Octree.build_octree", "ocnn/utils.py:scatter_add"]}
{"id": "C12", "title": "Leaf averages stay inside their node", "statement": "The averaged position stored for a non-empty finest node lies in the half-open cell of that node, so re-building an octree from the averaged points yields the same keys at every depth.", "quantifier": "all point clouds in range", "why_tests_cant": "convexity argument over all inputs", "anchors": ["ocnn/octree/octree.py:Octree.build_octree", "ocnn/octree/octree.py:Octree.to_points"]}
{"id": "C13", "title": "build_octree does not depend on point order or duplicates", "statement": "Permuting the input points leaves keys, children, node counts and averaged signals unchanged; repeating input points leaves keys, children and node counts unchanged.", "quantifier": "all point clouds and all permutations", "why_tests_cant": "n! orders", "anchors": ["ocnn/octree/octree.py:Octree.build_octree"]}
{"id": "C14", "title": "Points on the upper face of the cube are placed in their own cell", "statement": "The class documents the legal range as the closed cube [-1, 1]; every legal point should be stored in a node adjacent to it.", "quantifier": "all points in the closed cube", "why_tests_cant": "measure-zero boundary is never hit by random tests", "anchors": ["ocnn/octree/octree.py:Octree.build_octree", "ocnn/octree/shuffled_key.py:xyz2key"]}
{"id": "C15", "title": "Building a batch equals merging single octrees", "statement": "For every list of point clouds, build_octree on merge_points(list) gives the same keys, children, nnum, nnum_nempty and averaged signals at every depth as merge_octrees applied to the octrees built from the individual clouds.", "quantifier": "all non-empty lists of at least two in-range point clouds, all depths", "why_tests_cant": "tests compare one pair of shapes", "anchors": ["ocnn/octree/octree.py:merge_octrees", "ocnn/octree/points.py:merge_points", "ocnn/octree/octree.py:Octree.build_octree"]}
{"id": "C16", "title": "merge_octrees keeps every sample intact", "statement": "In the merged octree, the nodes of sample i at any depth form the contiguous block given by the per-sample node counts, with the same cells and the same emptiness as octree i, batch index i, and child indices shifted by the number of non-empty nodes of earlier samples; batch_nnum records each sample's counts; the merged octree again satisfies all layer invariants.", "quantifier": "all non-empty lists of single-sample octrees of equal depth and full depth", "why_tests_cant": "all list lengths and shapes", "anchors": ["ocnn/octree/octree.py:merge_octrees"]}
{"id": "C17", "title": "merge_octrees of already batched octrees", "statement": "merge_octrees documents its input as a list of octrees with no restriction on their batch size; merging should keep different samples apart.", "quantifier": "all lists of octrees", "why_tests_cant": "tests merge single octrees only", "anchors": ["ocnn/octree/octree.py:merge_octrees"]}
{"id": "C18", "title": "octree_split numbers the split nodes", "statement": "After octree_split(split, d) with a 0/1 vector, node i is non-empty iff split[i]=1, child indices are consecutive in node order and nnum_nempty is the number of ones; if all entries are 0 (and the layer is not empty) exactly the first node is made non-empty.", "quantifier": "all 0/1 vectors of any length", "why_tests_cant": "2^n vectors", "anchors": ["ocnn/octree/octree.py:Octree.octree_split", "ocnn/utils.py:cumsum"]}
{"id": "C19", "title": "Any sequence of predicted splits yields a well-formed octree", "statement": "Starting from init_octree and, for d = full_depth..depth, applying octree_split with arbitrary 0/1 predictions followed by octree_grow(d+1), never raises, satisfies all layer invariants at every step and leaves correct neighbour tables at every depth; every layer is non-empty.", "quantifier": "all depths, full depths >= 0, batch sizes >= 1 and all adaptive prediction sequences", "why_tests_cant": "all decoder outputs", "anchors": ["ocnn/octree/octree.py:Octree.octree_split", "ocnn/octree/octree.py:Octree.octree_grow", "ocnn/octree/octree.py:init_octree", "ocnn/models/autoencoder.py:AutoEncoder.decoder"]}
{"id": "C20", "title": "Replaying an octree's own splits reproduces it", "statement": "Starting from init_octree and splitting each layer according to the emptiness of a given well-formed octree's layer (each layer having at least one non-empty node) reproduces that octree's keys, children and node counts at every depth.", "quantifier": "all well-formed octrees", "why_tests_cant": "test replays one stored octree", "anchors": ["ocnn/octree/octree.py:Octree.octree_split", "ocnn/octree/octree.py:Octree.octree_grow", "ocnn/octree/octree.py:Octree.octree_grow_full"]}
{"id": "C21", "title": "Neighbour tables are exact", "statement": "For every well-formed octree, after construct_all_neigh, entry k of row i at depth d is j >= 0 iff node j belongs to the same sample as node i and its cell is the cell of node i displaced by the k-th offset of {-1,0,1}^3; it is -1 iff the displaced cell is outside the cube or is not a node of the octree.", "quantifier": "all well-formed octrees with full_depth >= 1, all depths 1..16, all batch sizes, all nodes and all 27 offsets", "why_tests_cant": "tests compare one stored octree", "anchors": ["ocnn/octree/octree.py:Octree.construct_neigh", "ocnn/octree/octree.py:Octree.construct_all_neigh", "ocnn/octree/octree.py:Octree.reset"]}
{"id": "C22", "title": "Neighbour relation is symmetric and stays inside a sample", "statement": "Entry 13 of row i is i; if entry k of row i is j >= 0 then entry 26-k of row j is i; i and j have the same batch index.", "quantifier": "all well-formed octrees, nodes and offsets", "why_tests_cant": "all inputs", "anchors": ["ocnn/octree/octree.py:Octree.construct_neigh"]}
{"id": "C23", "title": "Kernel look-ups select the right offsets", "statement": "get_neigh with kernel 'abc' returns exactly the columns whose offsets are allowed by the kernel shape (size 3 allows -1,0,1; size 1 allows 0; size 2 allows 0,1), in row-major order of the kernel; for stride 2 row i is the row of node 8i; unsupported kernels and strides raise.", "quantifier": "all eight kernels, both strides, all octrees, any other kernel string or stride", "why_tests_cant": "tables are hand-written constants", "anchors": ["ocnn/octree/octree.py:Octree.get_neigh", "ocnn/octree/octree.py:Octree.reset"]}
{"id": "C24", "title": "Non-empty neighbourhoods are the neighbourhoods of the sub-list of non-empty nodes", "statement": "get_neigh(nempty=True, stride=1) row i, column k is the rank among non-empty nodes of the node displaced by offset k from the i-th non-empty node, or -1 if that node does not exist or is empty.", "quantifier": "all well-formed octrees, depths, kernels", "why_tests_cant": "all inputs", "anchors": ["ocnn/octree/octree.py:Octree.get_neigh"]}
{"id": "C25", "title": "Queries do not modify the octree", "statement": "get_neigh (any kernel, stride and nempty flag), merge_octrees and the search functions leave every tensor already held by the octree(s) unchanged, although they assign into tensors in place.", "quantifier": "all octree states, all arguments", "why_tests_cant": "aliasing through tensor views", "anchors": ["ocnn/octree/octree.py:Octree.get_neigh", "ocnn/octree/octree.py:merge_octrees", "ocnn/octree/octree.py:Octree.search_key"]}
{"id": "C26", "title": "Search finds exactly the matching node", "statement": "search_key(query, depth, nempty) returns for each query the unique position whose key equals the query if there is one and -1 otherwise, for all queries including ones smaller or larger than every key and for layers with no node; search_xyzb does the same for in-range coordinates.", "quantifier": "all layers with strictly increasing keys, all query vectors", "why_tests_cant": "all inputs, both boundary cases", "anchors": ["ocnn/octree/octree.py:Octree.search_key", "ocnn/octree/octree.py:Octree.search_xyzb"]}
{"id": "C27", "title": "xyzb, key and batch_id agree", "statement": "For every well-formed octree, xyzb(depth, nempty) returns cells inside [0, 2^depth) and batch indices inside [0, batch_size), batch_id equals the fourth component of xyzb, encoding xyzb gives key, and looking up xyzb with search_xyzb returns 0,1,2,...", "quantifier": "all well-formed octrees, depths and nempty flags", "why_tests_cant": "all inputs", "anchors": ["ocnn/octree/octree.py:Octree.xyzb", "ocnn/octree/octree.py:Octree.key", "ocnn/octree/octree.py:Octree.batch_id", "ocnn/octree/octree.py:Octree.search_xyzb"]}
{"id": "C28", "title": "construct_all_neigh works for every legal full_depth", "statement": "construct_all_neigh should succeed on every octree produced by build_octree, for every full_depth >= 0.", "quantifier": "all octrees, all full depths", "why_tests_cant": "full_depth = 0 is never tested", "anchors": ["ocnn/octree/octree.py:Octree.construct_all_neigh", "ocnn/octree/octree.py:Octree.construct_neigh"]}
{"id": "C29", "title": "Re-using an Octree object for another point cloud", "statement": "After a second build_octree on the same object the octree should describe the second point cloud only, whatever was built before.", "quantifier": "all pairs of point clouds, all histories of builds", "why_tests_cant": "histories", "anchors": ["ocnn/octree/octree.py:Octree.build_octree", "ocnn/octree/octree.py:Octree.reset"]}
{"id": "C30", "title": "octree_pad and octree_depad are inverse on non-empty nodes", "statement": "depad(pad(x, v)) = x for every feature tensor with one row per non-empty node; pad(depad(y), v) equals y on non-empty nodes and v on empty nodes; the padded tensor has nnum rows.", "quantifier": "all octrees, depths, feature tensors and fill values", "why_tests_cant": "all inputs", "anchors": ["ocnn/nn/octree_pad.py:octree_pad", "ocnn/nn/octree_pad.py:octree_depad"]}
{"id": "C31", "title": "octree_pad rejects tensors of the wrong height", "statement": "octree_pad should raise when the number of input rows differs from the number of non-empty nodes.", "quantifier": "all octrees, all tensor heights", "why_tests_cant": "silent broadcasting of one-row tensors", "anchors": ["ocnn/nn/octree_pad.py:octree_pad"]}
{"id": "C32", "title": "octree2col gathers the displaced cells", "statement": "octree2col(data)[i,k] is the feature row of the node at offset k from node i when that node exists (and is non-empty if nempty), otherwise zero.", "quantifier": "all well-formed octrees, kernels, strides, nempty flags, feature tensors", "why_tests_cant": "all inputs", "anchors": ["ocnn/nn/octree2col.py:octree2col"]}
{"id": "C33", "title": "col2octree is the adjoint of octree2col", "statement": "For all data x and column tensors y: <octree2col(x), y> = <x, col2octree(y)> (exact arithmetic).", "quantifier": "all octrees, kernels, strides, flags, tensors over any commutative ring", "why_tests_cant": "linear-algebra identity over all tensors", "anchors": ["ocnn/nn/octree2col.py:octree2col", "ocnn/nn/octree2col.py:col2octree", "ocnn/utils.py:scatter_add"]}
{"id": "C34", "title": "Convolution equals its mathematical definition", "statement": "OctreeConv output at row i is the sum over kernel offsets k of W_k applied to the feature of the node at offset k (absent nodes contribute zero), plus bias; with stride 2 rows correspond to the non-empty parents and (nempty=False) empty parents receive zero.", "quantifier": "all well-formed octrees, kernels, strides, flags, weights and data", "why_tests_cant": "all inputs", "anchors": ["ocnn/nn/octree_conv.py:OctreeConv", "ocnn/nn/octree_conv.py:OctreeConvBase.forward_gemm"]}
{"id": "C35", "title": "Memory-bounded convolution equals direct convolution", "statement": "For every max_buffer that can hold one row (max_buffer >= kernel volume * channels) the chunked forward pass, backward pass and weight gradient give exactly the same result as the unchunked one; the chunks partition the rows, no chunk is empty when there is at least one row, and the temporary buffer never exceeds max_buffer elements.", "quantifier": "all row counts, kernel sizes, channel counts and buffer limits", "why_tests_cant": "integer-rounding corner cases for every combination", "anchors": ["ocnn/nn/octree_conv.py:OctreeConvBase.setup", "ocnn/nn/octree_conv.py:OctreeConvBase.forward_gemm", "ocnn/nn/octree_conv.py:OctreeConvBase.backward_gemm", "ocnn/nn/octree_conv.py:OctreeConvBase.weight_gemm"]}
{"id": "C36", "title": "Any positive max_buffer is accepted", "statement": "OctreeConv should work for any positive max_buffer.", "quantifier": "all row counts, channel counts and positive buffer limits", "why_tests_cant": "tests use 2e4 and 2e8", "anchors": ["ocnn/nn/octree_conv.py:OctreeConvBase.setup"]}
{"id": "C37", "title": "Convolution gradients are exact", "statement": "For every upstream gradient g: <conv(x; W), g> = <x, grad_x> and <conv(x; W), g> = <W, grad_W>, where grad_x and grad_W are what the backward pass returns; since conv is bilinear these are the exact derivatives, for every chunking.", "quantifier": "all neighbour tables, data, weights, gradients, buffer limits", "why_tests_cant": "gradient identity over all tensors", "anchors": ["ocnn/nn/octree_conv.py:OctreeConvFunction", "ocnn/nn/octree_conv.py:OctreeConvBase.backward_gemm", "ocnn/nn/octree_conv.py:OctreeConvBase.weight_gemm"]}
{"id": "C38", "title": "Deconvolution is the transpose of convolution and has exact gradients", "statement": "<octree_deconv(x; W), y> = <x, octree_conv(y; W)> for the same neighbourhood, and the backward pass of octree_deconv returns the exact gradients for data and weights.", "quantifier": "all neighbour tables, data, weights, buffer limits", "why_tests_cant": "identity over all tensors", "anchors": ["ocnn/nn/octree_conv.py:OctreeDeconvFunction", "ocnn/nn/octree_conv.py:OctreeDeconv"]}
{"id": "C39", "title": "Depth-wise convolution is the diagonal case of convolution", "statement": "OctreeDWConv with weights w equals OctreeConv whose kernel matrices are diag(w_k), for output, data gradient and weight gradient.", "quantifier": "all neighbour tables, tensors, buffer limits", "why_tests_cant": "identity over all tensors", "anchors": ["ocnn/nn/octree_dwconv.py:OctreeDWConvBase", "ocnn/nn/octree_dwconv.py:OctreeDWConvFunction"]}
{"id": "C40", "title": "Group convolution is the block-diagonal case of convolution", "statement": "OctreeGroupConv equals a single OctreeConv whose kernel matrices are block-diagonal with the per-group weights; it raises unless the group count divides both channel counts.", "quantifier": "all group counts, tensors and octrees", "why_tests_cant": "no test exists", "anchors": ["ocnn/nn/octree_gconv.py:OctreeGroupConv"]}
{"id": "C41", "title": "Convolution layers never hit a shape error on well-formed octrees", "statement": "On every well-formed octree with neighbour tables, OctreeConv and OctreeDeconv with stride 1 or 2 accept a tensor whose height is the documented node count and return a tensor whose height is the documented node count of the output depth.", "quantifier": "all well-formed octrees, strides, flags, depths", "why_tests_cant": "boundary at full_depth for all octrees", "anchors": ["ocnn/nn/octree_conv.py:OctreeConvBase.setup", "ocnn/nn/octree_conv.py:OctreeConv", "ocnn/nn/octree_conv.py:OctreeDeconv"]}
{"id": "C42", "title": "Max pooling takes the maximum over the children", "statement": "octree_max_pool at depth d gives each non-empty node of depth d-1 the channel-wise maximum over its (non-empty, if nempty) children, and with nempty=False gives 0 to empty nodes; the returned indices are the child codes of the first maximal child.", "quantifier": "all well-formed octrees, depths, tensors", "why_tests_cant": "all inputs", "anchors": ["ocnn/nn/octree_pool.py:octree_max_pool"]}
{"id": "C43", "title": "Max unpooling puts values back where they came from", "statement": "octree_max_unpool(octree_max_pool(x)) equals x at each channel's maximal child and 0 at the other children; pooling it again returns the pooled values when they are non-negative.", "quantifier": "all well-formed octrees, tensors, flags", "why_tests_cant": "all inputs", "anchors": ["ocnn/nn/octree_pool.py:octree_max_unpool", "ocnn/nn/octree_pool.py:octree_max_pool"]}
{"id": "C44", "title": "Max pooling of finite features is finite", "statement": "octree_max_pool(nempty=True) should return finite values for finite features; it does wherever every non-empty parent has a non-empty child.", "quantifier": "all octrees, depths and finite features", "why_tests_cant": "occurs only at or above full_depth, or after all-empty predictions", "anchors": ["ocnn/nn/octree_pool.py:octree_max_pool"]}
{"id": "C45", "title": "Average pooling output has the height of the pooled layer", "statement": "octree_avg_pool with stride 2 should return one row per node of depth d-1 (like octree_max_pool and OctreeConv).", "quantifier": "all octrees, depths, flags", "why_tests_cant": "test uses a full layer where both counts agree", "anchors": ["ocnn/nn/octree_pool.py:octree_avg_pool"]}
{"id": "C46", "title": "Average pooling averages the existing neighbours", "statement": "Row i of octree_avg_pool is the sum of the features of the existing (non-empty, if nempty) neighbours in the kernel divided by (their number + 1e-8); in particular for features in [0, m] it lies in [0, m].", "quantifier": "all octrees, kernels, strides, tensors", "why_tests_cant": "all inputs", "anchors": ["ocnn/nn/octree_pool.py:octree_avg_pool"]}
{"id": "C47", "title": "Global pooling is the per-sample mean", "statement": "octree_global_pool returns for each sample the mean of the rows whose batch index is that sample, and 0 for samples without rows.", "quantifier": "all batch index vectors, tensors", "why_tests_cant": "all inputs incl. empty samples", "anchors": ["ocnn/nn/octree_pool.py:octree_global_pool"]}
{"id": "C48", "title": "octree2voxel is exact", "statement": "octree2voxel writes each node's feature at its own (batch, x, y, z) cell, zero elsewhere, with no two nodes writing to the same cell and no index out of range.", "quantifier": "all well-formed octrees, depths, flags, tensors", "why_tests_cant": "all inputs", "anchors": ["ocnn/nn/octree2vox.py:octree2voxel"]}
{"id": "C49", "title": "octree_align copies features between matching nodes", "statement": "octree_align(value, A, B, d) gives each node of B the feature of the node of A with the same key and 0 if A has no such node, for octrees A with at least one node at that depth; aligning an octree with itself is the identity; aligning with another octree and back keeps the features of the nodes both have and sets the others to 0.", "quantifier": "all pairs of well-formed octrees, tensors", "why_tests_cant": "all inputs incl. out-of-range queries", "anchors": ["ocnn/nn/octree_align.py:octree_align", "ocnn/nn/octree_align.py:search_value"]}
{"id": "C50", "title": "Nearest-neighbour interpolation is exact", "statement": "For query points in [0, 2^depth)^3 and an existing sample, octree_nearest_pts returns the feature of the node whose cell contains the point, or 0 when there is no such node.", "quantifier": "all well-formed octrees, query points, flags", "why_tests_cant": "all inputs", "anchors": ["ocnn/nn/octree_interp.py:octree_nearest_pts"]}
{"id": "C51", "title": "bound_check removes out-of-range queries", "statement": "With bound_check=True, query points outside [0, 2^depth) get 0 in octree_nearest_pts.", "quantifier": "all query points", "why_tests_cant": "all inputs", "anchors": ["ocnn/nn/octree_interp.py:octree_nearest_pts"]}
{"id": "C52", "title": "Nearest upsampling copies the parent", "statement": "octree_nearest_upsample gives each node of depth d+1 the feature of its parent; it agrees with octree_nearest_pts evaluated at the node centres; upsampling over several levels at once (OctreeUpsample nearest with target_depth) equals repeated one-level upsampling.", "quantifier": "all well-formed octrees, depths, tensors, flags", "why_tests_cant": "all inputs", "anchors": ["ocnn/nn/octree_interp.py:octree_nearest_upsample", "ocnn/nn/octree_interp.py:OctreeUpsample"]}
{"id": "C53", "title": "Linear interpolation weights", "statement": "In octree_linear_pts the eight corner weights are non-negative and sum to one; the output is the weighted sum over the existing corner nodes divided by (their total weight + 1e-12), so a point with no existing corner gets 0 and a point at a node centre gets that node's feature divided by (1 + 1e-12).", "quantifier": "all query points, octrees, tensors (exact rational arithmetic)", "why_tests_cant": "all inputs", "anchors": ["ocnn/nn/octree_interp.py:octree_linear_pts"]}
{"id": "C54", "title": "Linear interpolation uses only nodes adjacent to the query point", "statement": "The output of octree_linear_pts at an in-range point should depend only on nodes whose centre is within one cell of the point.", "quantifier": "all in-range query points, all octrees, default arguments", "why_tests_cant": "only within half a cell of the cube boundary", "anchors": ["ocnn/nn/octree_interp.py:octree_linear_pts", "ocnn/octree/shuffled_key.py:xyz2key", "ocnn/models/unet.py:UNet.forward"]}
{"id": "C55", "title": "OctreeInterp leaves the query points alone", "statement": "Calling OctreeInterp twice with the same query tensor should give the same result.", "quantifier": "all call histories", "why_tests_cant": "needs repeated calls with one tensor", "anchors": ["ocnn/nn/octree_interp.py:OctreeInterp.forward"]}
{"id": "C56", "title": "Group/instance normalisation is per sample", "statement": "The OctreeGroupNorm output on the nodes of one sample depends only on that sample's features (equal to normalising the sample alone), OctreeInstanceNorm is the case of one channel per group, and the constructor rejects channel counts not divisible by the group count.", "quantifier": "all batches, tensors, group counts", "why_tests_cant": "all inputs", "anchors": ["ocnn/nn/octree_norm.py:OctreeGroupNorm", "ocnn/nn/octree_norm.py:OctreeInstanceNorm"]}
{"id": "C57", "title": "DropPath keeps or drops whole samples", "statement": "In evaluation mode or with drop_prob <= 0 OctreeDropPath is the identity; in training mode with 0 < drop_prob <= 1 every sample's rows are either all zero or all multiplied by the same factor (1/keep_prob when scaling, else 1).", "quantifier": "all random draws in [0,1), all batches", "why_tests_cant": "all random draws", "anchors": ["ocnn/nn/octree_drop.py:OctreeDropPath.forward"]}
{"id": "C58", "title": "Batching does not change results", "statement": "Running convolution or pooling on a merged octree and taking the rows of sample i gives the same as running it on octree i alone.", "quantifier": "all lists of single-sample octrees, layers, tensors, weights", "why_tests_cant": "all batch compositions", "anchors": ["ocnn/octree/octree.py:merge_octrees", "ocnn/octree/octree.py:Octree.construct_all_neigh", "ocnn/nn/octree_conv.py:OctreeConv", "ocnn/nn/octree_pool.py:octree_max_pool"]}
{"id": "C59", "title": "Slicing and clipping keep attributes aligned", "statement": "Points[mask] and Points.clip keep exactly the points selected by the mask (for clip: strictly inside (min+esp, max-esp)), in order, with the normals, features, labels and batch indices of the same points; clip returns the mask and is idempotent.", "quantifier": "all point clouds and boxes", "why_tests_cant": "all inputs", "anchors": ["ocnn/octree/points.py:Points.clip", "ocnn/octree/points.py:Points.__getitem__", "ocnn/octree/points.py:Points.inbox_mask"]}
{"id": "C60", "title": "merge_points concatenates", "statement": "merge_points keeps all points with their attributes in order, batch_id of each point is the position of its cloud, batch_npt lists the sizes, and splitting by batch_npt recovers the clouds.", "quantifier": "all lists of point clouds with the same attributes", "why_tests_cant": "all inputs", "anchors": ["ocnn/octree/points.py:merge_points"]}
{"id": "C61", "title": "Points.rotate is an isometry", "statement": "For all angles the point and normal rows are multiplied by one orthogonal matrix of determinant 1: lengths, inner products between points, and point-normal inner products are preserved.", "quantifier": "all angles, all point clouds (exact arithmetic with cos^2+sin^2=1)", "why_tests_cant": "all angles", "anchors": ["ocnn/octree/points.py:Points.rotate"]}
{"id": "C62", "title": "Points.flip is an involution that commutes", "statement": "Flipping along the same axes twice restores the cloud; the order of axes is irrelevant; unknown axis letters raise.", "quantifier": "all axis strings, all clouds", "why_tests_cant": "all strings", "anchors": ["ocnn/octree/points.py:Points.flip"]}
{"id": "C63", "title": "Points.scale keeps normals orthogonal to the surface", "statement": "For every factor without zero component, if a tangent vector is orthogonal to a normal before scaling then the scaled tangent is orthogonal to the new normal; factor (1,1,1) changes nothing; a zero component raises.", "quantifier": "all factors, clouds", "why_tests_cant": "all inputs", "anchors": ["ocnn/octree/points.py:Points.scale"]}
{"id": "C64", "title": "Points.normalize fits the cube", "statement": "After normalize(*bbox(), scale) with scale > 0 every coordinate lies in [-scale, scale] and the map is a similarity (one positive factor for all axes); bbox contains every point and is attained.", "quantifier": "all non-empty clouds", "why_tests_cant": "all inputs", "anchors": ["ocnn/octree/points.py:Points.normalize", "ocnn/octree/points.py:Points.bbox"]}
{"id": "C65", "title": "orient_normal gives non-negative components", "statement": "After orient_normal('x'), ('y') or ('z') the chosen component of every normal is non-negative and every normal equals plus or minus the original; orient_normal('xyz') replaces every component by its absolute value.", "quantifier": "all normals, axes", "why_tests_cant": "all inputs", "anchors": ["ocnn/octree/points.py:Points.orient_normal"]}
{"id": "C66", "title": "orient_normal is idempotent", "statement": "Orienting a second time along the same axis should change nothing.", "quantifier": "all normals, axes", "why_tests_cant": "normals with a zero component", "anchors": ["ocnn/octree/points.py:Points.orient_normal"]}
{"id": "C67", "title": "Points accepts the documented batch_id forms", "statement": "check_input is written to accept batch_id of shape (N,) or (N,1); both should construct a valid object.", "quantifier": "all point clouds", "why_tests_cant": "no test passes batch_id", "anchors": ["ocnn/octree/points.py:Points.check_input"]}
{"id": "C68", "title": "Octree.to_points returns the averaged points", "statement": "to_points should return the averaged points of the non-empty finest nodes rescaled to [-1, 1], for every octree.", "quantifier": "all octrees", "why_tests_cant": "no test calls to_points", "anchors": ["ocnn/octree/octree.py:Octree.to_points", "ocnn/octree/points.py:Points.check_input"]}
{"id": "C69", "title": "Moving Points to another device keeps its metadata", "statement": "Points.to(device) should keep batch_size, so that a batched cloud can still be built after moving.", "quantifier": "all clouds, devices", "why_tests_cant": "tests move single clouds only", "anchors": ["ocnn/octree/points.py:Points.to"]}
{"id": "C70", "title": "Moving an octree to another device keeps its content", "statement": "Octree.to(device) returns an octree with the same keys, children, neighbours, signals and node counts (or the object itself on the same device).", "quantifier": "all octree states", "why_tests_cant": "all inputs", "anchors": ["ocnn/octree/octree.py:Octree.to"]}
{"id": "C71", "title": "Data pipeline establishes build_octree's precondition", "statement": "Whatever flip, rotation, translation and scaling is drawn, Transform clips the points strictly inside (-0.99, 0.99) before building, so the in-range precondition of build_octree always holds and each kept point lies in its node.", "quantifier": "all random parameters, all clouds", "why_tests_cant": "all random draws", "anchors": ["ocnn/dataset.py:Transform.transform", "ocnn/octree/points.py:Points.clip", "ocnn/octree/octree.py:Octree.build_octree"]}
{"id": "C72", "title": "Collation yields a ready batch", "statement": "CollateBatch on a non-empty list of samples merges every entry whose name contains 'octree' into one batched octree with neighbour tables and keeps every other entry as the list of per-sample values in order (points merged only on request); values under a name containing 'label' are also stored as one tensor under 'label', where the last such name wins.", "quantifier": "all batches", "why_tests_cant": "all inputs", "anchors": ["ocnn/dataset.py:CollateBatch.__call__"]}
{"id": "C73", "title": "Input features have the documented ranges", "statement": "get_input_feature returns the channels in the order N, D, L, P, F; local coordinates are in [-1/2, 1/2), global coordinates are in [-1, 1) and equal the averaged input point; with nempty=False empty nodes get 0.", "quantifier": "all octrees built from in-range clouds, all feature strings", "why_tests_cant": "all inputs", "anchors": ["ocnn/octree/octree.py:Octree.get_input_feature", "ocnn/modules/modules.py:InputFeature"]}
{"id": "C74", "title": "scatter_add sums rows per index", "statement": "scatter_add along dim 0 returns, for each output row, the sum of the source rows whose index is that row (zero if none); the result does not depend on the order of (index, row) pairs; negative or too large indices raise.", "quantifier": "all index vectors, tensors", "why_tests_cant": "all inputs", "anchors": ["ocnn/utils.py:scatter_add"]}
{"id": "C75", "title": "Exclusive cumsum", "statement": "cumsum(exclusive=True) returns n+1 prefix sums starting with 0 and ending with the total.", "quantifier": "all vectors", "why_tests_cant": "all inputs", "anchors": ["ocnn/utils.py:cumsum"]}
{"id": "C76", "title": "Kernel size lists are normalised", "statement": "resize_with_last_val returns a list of exactly 3 entries extending the input with its last entry, is idempotent, and raises on lists longer than 3 or empty; list2str of the result is the kernel name used by get_neigh.", "quantifier": "all lists", "why_tests_cant": "all inputs", "anchors": ["ocnn/utils.py:resize_with_last_val", "ocnn/utils.py:list2str"]}
{"id": "C77", "title": "Networks are shape-correct on every octree", "statement": "UNet, ResNet, LeNet, HRNet and AutoEncoder forward passes never hit a height or width mismatch on any well-formed octree deep enough for their number of stages (UNet depth > stages, ResNet depth >= stages, HRNet depth >= min(stages, 4) + 2, LeNet depth = stages + 2 and no other, AutoEncoder 1 <= full_depth <= depth <= 9) and return one row per sample, query point or octant; the exception is training mode with exactly one row, which BatchNorm1d refuses. With update_octree the AutoEncoder returns a well-formed octree.", "quantifier": "all well-formed octrees, depths, stage numbers, nempty flags", "why_tests_cant": "all octrees", "anchors": ["ocnn/models/unet.py:UNet", "ocnn/models/resnet.py:ResNet", "ocnn/models/lenet.py:LeNet", "ocnn/models/hrnet.py:HRNet", "ocnn/models/autoencoder.py:AutoEncoder"]}
{"id": "C78", "title": "SegNet is shape-correct with nempty=True", "statement": "SegNet should run with nempty=True on every well-formed octree deep enough for its stages.", "quantifier": "all well-formed octrees, stages", "why_tests_cant": "no test", "anchors": ["ocnn/models/segnet.py:SegNet"]}
{"id": "C79", "title": "Every exported model and block can be constructed", "statement": "OUNet(...) and OctreeResBlock2(stride=2) should be constructible.", "quantifier": "all constructor arguments", "why_tests_cant": "no test", "anchors": ["ocnn/models/ounet.py:OUNet", "ocnn/modules/resblocks.py:OctreeResBlock2"]}
{"id": "C80", "title": "Prediction aggregation puts scores back on the original points", "statement": "SegSolver.eval_step adds, for every epoch, each sample's probabilities at exactly the positions kept by that epoch's inbox mask and 0 at the clipped positions, so the aggregate at a point is the sum over the epochs in which it was kept.", "quantifier": "all numbers of epochs, masks, probabilities", "why_tests_cant": "histories of epochs", "anchors": ["projects/segmentation.py:SegSolver.eval_step"]}
{"id": "C81", "title": "IoU is a ratio in [0,1]", "statement": "IoU_per_shape returns intersections not larger than unions for every class and a mean IoU in [0, 1].", "quantifier": "all predictions and labels", "why_tests_cant": "all inputs", "anchors": ["projects/segmentation.py:SegSolver.IoU_per_shape"]}
{"id": "C82", "title": "ScanNet chunks cover the scene", "statement": "generate_chunks on a scene larger than the crop size should produce crops covering every vertex.", "quantifier": "all scenes", "why_tests_cant": "scenes with negative coordinates", "anchors": ["projects/tools/seg_scannet.py:generate_chunks"]}
{"id": "C83", "title": "ScanNet chunk predictions are merged per scene", "statement": "generate_output_seg should add the predictions of all chunks of one scene under the scene's name, for any number of chunks.", "quantifier": "all chunk counts", "why_tests_cant": "scenes with more than ten chunks", "anchors": ["projects/tools/seg_scannet.py:generate_output_seg", "projects/tools/seg_scannet.py:generate_chunks"]}
{"id": "C84", "title": "Transposed convolution equals its mathematical definition", "statement": "OctreeDeconv returns, at each output node, the sum over the kernel offsets k and the input nodes t with (anchor of t) + offset k = that node of x_t W_k^T (plus the bias); with stride 2 the input lives one level above the output.", "quantifier": "all well-formed octrees, depths, kernels, strides, nempty flags, weights, buffers that hold one row", "why_tests_cant": "the sum runs over all octree shapes; tests fix one", "anchors": ["ocnn/nn/octree_conv.py:OctreeDeconv", "ocnn/nn/octree_conv.py:OctreeDeconvFunction"]}
{"id": "C85", "title": "ScanNet labels survive the round trip", "statement": "Mapping raw ScanNet labels to training classes and back gives every raw label of the class table (20 or 200 classes) unchanged and 0 for all others; the training classes are smaller than the number of classes.", "quantifier": "all raw labels, both class tables", "why_tests_cant": "2048 labels and tables of 21 and 201 entries", "anchors": ["projects/tools/seg_scannet.py:label_dict", "projects/tools/seg_scannet.py:ilabel_dict", "projects/tools/seg_scannet.py:process_scannet"]}
{"id": "C86", "title": "Network predictions do not depend on the rest of the batch", "statement": "In evaluation mode LeNet, ResNet, HRNet, UNet, SegNet (where it runs) and AutoEncoder without octree update return for a merged batch of octrees exactly the concatenation of what they return for the octrees one by one, for every batch and all parameters.", "quantifier": "all mergeable batches of octrees, all inputs, parameters, depths, stage numbers, nempty flags, query points, interpolation methods", "why_tests_cant": "batches and octree shapes are unbounded; composition of dozens of layers", "anchors": ["ocnn/models/lenet.py:LeNet", "ocnn/models/resnet.py:ResNet", "ocnn/models/hrnet.py:HRNet", "ocnn/models/unet.py:UNet", "ocnn/models/segnet.py:SegNet", "ocnn/models/autoencoder.py:AutoEncoder"]}
{"id": "C87", "title": "Teacher-forced and free-running decoding of the autoencoder agree when the predictions are right", "statement": "If the split logits that AutoEncoder.forward(octree, update_octree=False) returns predict exactly the non-empty octants of the octree at every depth, then forward(octree, update_octree=True) and decode_code of the same code generate an octree with the same keys, children and counters and return the same logits and signal. Conversely, decoding on the octree generated from a code returns exactly the logits and the signal of the generation.", "quantifier": "all well-formed octrees with a non-empty octant in every layer, depths up to 9, codes, parameters, training and evaluation mode", "why_tests_cant": "training uses one mode and inference the other; the octree grows with the predictions", "anchors": ["ocnn/models/autoencoder.py:AutoEncoder.decoder", "ocnn/models/autoencoder.py:AutoEncoder.decode_code", "ocnn/models/autoencoder.py:AutoEncoder.forward"]}
{"id": "C88", "title": "Preparing a sample leaves the arrays of the dataset unchanged, so that every epoch sees the data of the file", "statement": "Transform.__call__ (preprocess and transform) of a sample does not change the numpy arrays of the sample: however often the same sample is prepared, with whatever random parameters, the result is that of arrays just read from the file.", "quantifier": "all samples, all preprocess methods (base class, ae_shapenet, image2shape, seg_shapenet, semantic_kitti), all transform settings, all sequences of random draws", "why_tests_cant": "the arrays are shared with the tensors by torch.from_numpy; in-place methods are visible only when the same sample is used again", "anchors": ["ocnn/dataset.py:Transform", "ocnn/octree/points.py:Points.flip", "ocnn/octree/points.py:Points.orient_normal", "projects/datascts/ae_shapenet.py:ShapeNetTransform.preprocess", "projects/datascts/seg_shapenet.py:ShapeNetTransform.preprocess", "projects/datascts/semantic_kitti.py"]}
{"id": "C89", "title": "The evaluation of the autoencoder returns one oriented point per leaf, on the plane that the signal describes", "statement": "AutoEncoderSolver.eval_step splits its result into one cloud per sample; each cloud has one point with normal per non-empty finest node of the sample, at the predicted distance from the centre of the node along the normalised predicted normal. For the ground-truth normal and displacement this is the point of the plane through the averaged point, orthogonal to the normal, that is next to the centre. A signal with a wrong number of rows is refused.", "quantifier": "all octrees, all network parameters, all batch sizes, all signals, all cells, all unit normals", "why_tests_cant": "relates the decoder, the order of the nodes of a batch and the coordinates of the nodes; tests look at one reconstruction", "anchors": ["projects/autoencoder.py:AutoEncoderSolver.octree2pts", "projects/autoencoder.py:AutoEncoderSolver.eval_step", "ocnn/models/autoencoder.py:AutoEncoder"]}
{"id": "C90", "title": "Zero training error of the autoencoder means a right reconstruction", "statement": "AutoEncoderSolver.model_forward returns, for every depth, the proportion of nodes whose split is predicted correctly, and a regression loss that is 0 if and only if the predicted signal is the normal and displacement signal of the octree. If the accuracies are all 1 and the regression loss is 0, then eval_step, which sees only the code, returns for each sample exactly one point per cell occupied by its points, with the normal and displacement of the cell. A split loss below log 2 divided by the number of nodes implies accuracy 1.", "quantifier": "all point clouds, depths up to 9, full depths from 1 on, network parameters, input features", "why_tests_cant": "relates two runs of the network with different control flow; holds only for the whole octree, not for sampled nodes", "anchors": ["projects/autoencoder.py:AutoEncoderSolver.compute_loss", "projects/autoencoder.py:AutoEncoderSolver.model_forward", "projects/autoencoder.py:AutoEncoderSolver.eval_step", "ocnn/models/autoencoder.py:AutoEncoder", "ocnn/octree/octree.py:Octree.build_octree"]}
{"id": "C91", "title": "Generating shapes for a batch of codes gives what generating them one by one gives", "statement": "In evaluation mode, decode_code on the concatenation of the codes of several samples generates the octree that merge_octrees makes of the octrees generated from the single codes, with the logits and signals of the single runs one after the other. The same holds for Image2Shape with a batch of images. This fails if in some layer no node of a sample is predicted to have children: octree_split then adds the first node of the whole batch, not of each sample.", "quantifier": "all network parameters, batches up to 32768 samples, depths up to 9, codes", "why_tests_cant": "two octrees that are generated by the network itself must agree; the failing case depends on what the other samples of the batch predict", "anchors": ["ocnn/models/autoencoder.py:AutoEncoder.decode_code", "ocnn/models/autoencoder.py:AutoEncoder.decoder", "ocnn/models/image2shape.py:Image2Shape.forward", "ocnn/octree/octree.py:Octree.octree_split", "ocnn/octree/octree.py:merge_octrees"]}
{"id": "C92", "title": "Image2Shape generates one shape per image, and zero training error means the right shapes", "statement": "Image2Shape(image, octree) with as many images as the octree has samples returns two logits per node of every layer from full_depth on and a signal for every non-empty finest node; with another number of images, or without octree, it raises. With update_octree=True it returns a well-formed octree with one sample per image. The numbers of the code of an image keep their order. If the split accuracies of model_forward are all 1 and its regression loss is 0, then eval_step, which sees only the images, returns for each image exactly one oriented point per cell occupied by the points of its sample. In evaluation mode, with an image encoder that treats images one by one, the outputs for an image on its octree do not depend on the rest of the batch.", "quantifier": "all image encoders, network parameters, code channels up to 7000000, depths up to 9, octrees, numbers of images", "why_tests_cant": "quantifies over all encoders and octrees and relates two runs with different control flow", "anchors": ["ocnn/models/image2shape.py:Image2Shape.forward", "ocnn/models/image2shape.py:Image2Shape.decoder", "projects/image2shape.py:Image2ShapeSolver.model_forward", "projects/image2shape.py:Image2ShapeSolver.eval_step"]}
{"id": "C93", "title": "Convolution commutes with translations, reflections, exchange of axes and renumbering of samples", "statement": "If the cells of one octree are those of another moved by a motion of the voxel grid - a translation by whole cells, a reflection, an exchange of two axes, a renumbering of the samples - and the input features are moved with the cells, then octree convolution gives on every moved cell what it gave on the original cell, provided the kernel matrices are turned with the offsets (for translations and renumberings: the same matrices). For stride 2 the coarse cells must be moved compatibly. Octrees built from a point cloud and from the cloud translated by whole cells of some layer are such octrees, for that layer and all finer ones.", "quantifier": "all octrees, motions, kernels, features, weights, depths, point clouds", "why_tests_cant": "relates two different octrees with different node orders, for all inputs; a test covers one cloud and one motion", "anchors": ["ocnn/nn/octree_conv.py:OctreeConv.forward", "ocnn/octree/octree.py:Octree.get_neigh", "ocnn/octree/octree.py:Octree.build_octree", "ocnn/octree/octree.py:Octree.construct_all_neigh"]}
{"id": "C94", "title": "Translating the input by whole coarse voxels does not change what the networks predict", "statement": "If a point cloud is translated by a whole number of cells of some layer e >= full_depth and stays inside the cube, then ResNet and HRNet give the same logits, and UNet and SegNet give each translated query point the prediction of the original point, provided e is not finer than the coarsest layer the network works on (one coarser with nempty=False) and the input features are any of N, D, L, F (not the absolute positions P). The same holds for any two octrees of which one is the other moved by whole cells of level e, with the samples in another order: the rows of the logits are reordered accordingly. This holds in evaluation mode and, for ResNet, HRNet and UNet, in training mode, where batch normalization uses the statistics of the batch, if dropout draws the same numbers for a sample.", "quantifier": "all clouds, octrees, translations, sample orders, parameters, depths, stages, query points, both nempty flags", "why_tests_cant": "relates two runs of whole networks on octrees with different keys, node orders and neighbour tables, for all weights; a test compares one cloud under one set of weights, up to rounding", "anchors": ["ocnn/models/resnet.py:ResNet.forward", "ocnn/models/hrnet.py:HRNet.forward", "ocnn/models/unet.py:UNet.forward", "ocnn/models/segnet.py:SegNet.forward", "ocnn/octree/octree.py:Octree.build_octree", "ocnn/modules/modules.py:InputFeature.forward"]}
{"id": "C95", "title": "What the segmentation and classification programs predict for a sample does not depend on the batch it is in", "statement": "With the network in evaluation mode, the logits (and, for segmentation, the filtered labels) that the programs compute from a batch of point clouds - building one octree per cloud, merging them, constructing the neighbours, merging the clouds, computing the input features, running the configured network, and dropping the points whose label is not above the mask - are the concatenation of what they compute from the batches consisting of one cloud each. No step raises. Segmentation gives one row of nout logits per labelled point in the order of the points of the cloud; classification gives one row per cloud.", "quantifier": "all non-empty batches of non-empty clouds in the cube, all depths up to 16 and full depths from 1, all features, all five networks, all parameters, both nempty flags", "why_tests_cant": "composes ten functions of four modules whose intermediate tables all differ between the batch and the single samples; a test compares one batch under one set of weights, and only up to rounding", "anchors": ["projects/segmentation.py:SegSolver.process_batch", "projects/segmentation.py:SegSolver.model_forward", "projects/classification.py:ClsSolver.forward", "ocnn/dataset.py:CollateBatch.__call__", "ocnn/octree/octree.py:merge_octrees"]}
{"id": "C96", "title": "The segmentation metrics of a test epoch do not depend on how the samples are batched", "statement": "With the network in evaluation mode, the numbers of points of a batch that are predicted as and labelled with a class, predicted as or labelled with a class, and predicted correctly are the sums of those of the samples tested alone. The part mIoU reported at the end of a test epoch is the mean over the classes above the mask of the ratio of these totals over all clouds; it lies in [0, 1], is at most the fraction of the classes that occur (a class that is neither predicted nor labelled counts as 0), and two epochs over the same clouds in any order and grouping differ by at most 1e-10 times the difference of their numbers of batches.", "quantifier": "all test sets of non-empty clouds in the cube, all groupings and orders, all networks for segmentation, parameters, depths, features, masks and numbers of classes", "why_tests_cant": "relates two runs over all samples with different batches, of which there are exponentially many; a test would have to compare floating point metrics of specific groupings", "anchors": ["projects/segmentation.py:SegSolver.test_step", "projects/segmentation.py:SegSolver.result_callback", "projects/segmentation.py:SegSolver.IoU_per_shape", "projects/segmentation.py:SegSolver.accuracy"]}
{"id": "C97", "title": "Rounding in single precision moves a point by at most 2^-24 before it is stored in its cell", "statement": "Octree.build_octree computes (points + 1) * 2^(depth-1) in float32. For every point of the legal range [-1, 1) each point is stored in a leaf of its sample whose cube contains the point moved by at most 2^-24 along each axis, at every depth; when all coordinates are multiples of 2^-23 the octree is that of exact arithmetic.", "quantifier": "all clouds with coordinates in [-1, 1), all depths up to 16, full depths and batch sizes", "why_tests_cant": "the failing inputs are isolated float32 values, which random clouds practically never contain, and the claim bounds the error for all inputs", "anchors": ["ocnn/octree/octree.py:Octree.build_octree", "ocnn/octree/shuffled_key.py:xyz2key"]}
{"id": "C98", "title": "Predictions do not depend on the order of the points of a cloud", "statement": "Reordering the points of the clouds of a batch (together with their normals, features and labels) gives the same octree, hence the same classification logits; the segmentation program gives every labelled point a row of logits that depends only on the cloud and the position of the point, so the rows and labels are reordered with the points. This holds in training mode too, where batch normalization is computed over the points.", "quantifier": "all batches of legal clouds, all reorderings of each cloud, all networks, parameters, feature strings, interpolation methods and modes", "why_tests_cant": "the space of orders is factorial in the number of points, and a dependency would only show for particular collisions of points in a leaf", "anchors": ["projects/segmentation.py:SegSolver.model_forward", "projects/classification.py:ClsSolver.forward", "ocnn/octree/octree.py:Octree.build_octree", "ocnn/models/unet.py:UNet.forward", "ocnn/models/segnet.py:SegNet.forward"]}
{"id": "C99", "title": "SemanticKITTI scans keep each point with its intensity and the class of its label", "statement": "KittiTransform gives every word of a label file the index (1 to 19, in the order of the list of kept classes) of the class to which the lower 16 bits belong, with the moving variant of a class counted as the class, and 0 for all other ids; the instance number in the upper 16 bits plays no role, also where it makes the word negative. An id above 259, an empty scan and a wrong number of labels raise. The points are the positions relative to the middle of the bounding box in units of 100 metres, moved by the augmentation; exactly those strictly inside (-0.99, 0.99)^3 are kept, in order, each with its own intensity and class. Without augmentation these are the points less than 99 metres from the middle along every axis.", "quantifier": "all 2^32 label words, all scans, all settings and draws of the augmentation", "why_tests_cant": "there are 2^32 label words, and mixing up the rows of points, intensities and labels is invisible in shapes and types", "anchors": ["projects/datascts/semantic_kitti.py:KittiTransform.preprocess", "projects/datascts/semantic_kitti.py:get_label_map", "ocnn/dataset.py:Transform.transform"]}
{"id": "C100", "title": "A SemanticKITTI scan with a label file is read with its labels", "statement": "read_file of <dir>/velodyne/<scan>.bin returns the labels of <dir>/labels/<scan>.label if that file exists, and the label 0 for every point otherwise. This fails if the directory itself contains 'velodyne' or '.bin': the replacement changes the directory too, and the points silently become unlabelled.", "quantifier": "all directory and scan names, all contents", "why_tests_cant": "tests run in one directory; the failure is silent and depends on where the user keeps the data", "anchors": ["projects/datascts/semantic_kitti.py:read_file"]}
{"id": "C101", "title": "The completion data keep the whole ground truth, normalised by one similarity", "statement": "The transform of the completion program accepts every non-empty cloud with one normal per point, whatever is drawn. The ground truth is the whole cloud in order with its normals, moved by one similarity that takes the middle of the bounding box to the origin and the largest extent (plus 1e-6) to 1.9; no coordinate exceeds 0.95, so that the later clipping drops nothing. The input consists of the chosen ground-truth points displaced by 0.0095 times the noise; only those outside (-0.99, 0.99)^3 are dropped, which needs noise of more than 4.2 standard deviations. Both octrees are well-formed and their non-empty leaves are exactly the cells with a point of their cloud.", "quantifier": "all clouds, depths up to 16, all draws of indices and noise", "why_tests_cant": "a point lost by clipping depends on rare draws, and a wrong scale on the shape of the cloud", "anchors": ["projects/datascts/completion.py:Transform.__call__", "ocnn/octree/points.py:Points.clip", "ocnn/octree/octree.py:Octree.build_octree"]}
{"id": "C102", "title": "The augmented ScanNet colours are numbers between 0 and 1", "statement": "color_distort of non-empty colours in [0, 1] returns one colour in [0, 1] per point, and without jitter keeps the order of the values within a channel. This fails if a channel is constant: the contrast divides by zero and the whole channel becomes not-a-number, whatever is drawn. If no value exceeds 1/255, it raises AssertionError.", "quantifier": "all clouds of colours, all draws", "why_tests_cant": "scans with a constant channel (grey or synthetic scenes, crops of one colour) are rare, and NaN features raise no exception", "anchors": ["projects/datascts/scannet.py:color_distort"]}
{"id": "C103", "title": "The elastic distortion moves the points little and smoothly", "statement": "elastic_distort accepts every non-empty cloud. A pass moves each point, in order, by at most the magnitude times the largest random number along every axis, and from point to point the displacement changes by at most 2/3 of that per grid spacing (in the sum norm), so that the grid covers all points and no point falls back to the fill value. Several passes move a point by at most the sum. With probability 0.05 nothing moves; the empty cloud raises.", "quantifier": "all clouds, grid spacings, magnitudes and random arrays", "why_tests_cant": "a point at the border of the grid that is left out, or a jump between cells, needs particular positions", "anchors": ["projects/datascts/scannet.py:elastic_distort"]}
{"id": "C104", "title": "ScanNet scenes keep each point with its colour and label", "statement": "ScanNetTransform accepts every scene with one normal, colour and label per point (with augmentation: if the colours meet the conditions of C102). The points are the positions relative to the middle of the bounding box, and to the height 0.5, in units of 10.24 metres, with augmentation displaced by at most 0.2 B1 + 0.8 B2 for random numbers up to B1, B2, and moved by the transform; exactly those strictly inside (-0.99, 0.99)^3 are kept, in order, each with its own colour in [0, 1] and its own label. Without augmentation these are the points less than 10.1376 metres from the middle and between the heights -9.6376 and 10.6376.", "quantifier": "all scenes, settings and draws", "why_tests_cant": "mixing up the rows of points, colours and labels is invisible in shapes and types, and augmentation is random", "anchors": ["projects/datascts/scannet.py:ScanNetTransform.__call__", "ocnn/dataset.py:Transform.transform"]}
{"id": "C105", "title": "The normals of ScanNet meshes are the area-weighted normals and turn with the scene", "statement": "For every mesh whose faces index its vertices, vertex_normal returns per vertex the sum of the area vectors of the faces at it over its length (plus 1e-8); degenerate faces and faces with repeated vertices count nothing, and the order of the faces plays no role. A vertex without faces gets 0, no normal is longer than 1. Rotating and shifting the vertices rotates the normals, in particular align_to_axis with a right-handed orthonormal matrix, which uses the first axisAlignment of the file and otherwise moves nothing.", "quantifier": "all meshes, all rigid motions", "why_tests_cant": "repeated indices in a face and the in-place addition at several rows behave differently from the plain sum, which shows only for particular meshes", "anchors": ["projects/tools/seg_scannet.py:vertex_normal", "projects/tools/seg_scannet.py:face_normal", "projects/tools/seg_scannet.py:align_to_axis"]}
{"id": "C106", "title": "ScanNet200 labels come from the last group of a segment", "statement": "generate_point_labels200 gives each vertex the id of the last group that contains its segment: the id of the first row of the table with the name of the group if it is one of the 200 classes, else 0; vertices in no group get 0. Hence the labels map to training labels 0..200 and back without loss, and if no segment is in two groups, the order of the groups plays no role.", "quantifier": "all tables, segmentations and groups", "why_tests_cant": "overlapping groups, duplicate and unlisted names are rare in the data, and a wrong label raises no exception", "anchors": ["projects/tools/seg_scannet.py:generate_point_labels200"]}
{"id": "C107", "title": "The ScanNet evaluation counts each labelled point once", "statement": "calc_iou prints the mean over the files of the share of right predictions and the mean over the classes of intersection over union, of the points whose true label is a class; for the IoU it plays no role how the points are spread over files or what is predicted elsewhere; it lies in [0, 1), and perfect predictions give 1 up to 1e-10. This fails if a class does not occur (it counts as 0, so perfect predictions get at most the share of the other classes), and if a file has no labelled point (the accuracy becomes not-a-number). No files raise ZeroDivisionError.", "quantifier": "all predictions and labels, in any number of files", "why_tests_cant": "the benchmark contains all classes, so small subsets, where scores are silently too low, go unnoticed", "anchors": ["projects/tools/seg_scannet.py:calc_iou"]}
{"id": "C108", "title": "Saved point clouds are read back unchanged", "statement": "A cloud with byte colours and labels saved by save_ply, save_npz or save_points_to_ply, with any of the attributes, and read by ReadPly, ReadNpz or ReadFile has its points in order, positions and normals in single precision, colours and labels exactly, and only the attributes asked for; asking for an attribute that was not saved raises. ReadFile goes by what follows the last dot of the name.", "quantifier": "all clouds, sets of attributes and file names", "why_tests_cant": "swapped or shifted columns keep all shapes and types", "anchors": ["projects/tools/seg_scannet.py:save_ply", "projects/tools/seg_scannet.py:save_npz", "projects/tools/utils.py:save_points_to_ply", "projects/datascts/utils.py:ReadPly", "projects/datascts/utils.py:ReadNpz", "projects/datascts/utils.py:ReadFile"]}
{"id": "C109", "title": "A processed ScanNet scene keeps position, normal, colour and label of every vertex", "statement": "process_scannet turns a training scene with one colour and one raw label per vertex into a file from which ReadPly reads, per vertex and in order, the (aligned) position, the normal of C105, the colour, and a class number smaller than the number of classes from which the raw label can be recovered (0 for labels that are not a class). Scenes whose last column is not constant raise AssertionError.", "quantifier": "all meshes, colours, raw labels, both tables of classes, with and without alignment", "why_tests_cant": "the label overwrites a column of the colours' array and passes through a byte; errors keep shapes and types", "anchors": ["projects/tools/seg_scannet.py:process_scannet"]}
{"id": "C110", "title": "The part labels of ShapeNet are moved to 0, 1, ... per category", "statement": "The displacement used for a category is the number of part labels of the categories before it, so each of the 50 raw labels belongs to exactly one category; a text file with raw labels of its category is converted to a file that ReadPly reads with the points and normals in order (single precision) and labels 0, ..., n - 1 where n is the number of parts of the category.", "quantifier": "all categories, all clouds whose raw labels are those of their category", "why_tests_cant": "the displacements are a table of constants next to another one; a wrong entry shifts labels of one category without an exception", "anchors": ["projects/tools/seg_shapenet.py:txt_to_ply"]}
{"id": "C111", "title": "Each ShapeNet part shape is in the list of its own category", "statement": "generate_filelist puts each shape of the official splits into the list of its category and no other, training and validation together, with the name of the converted file and the number of the category. This holds if no name of a shape contains the id of a category; else the shape is also put into the lists of the categories its name contains.", "quantifier": "all splits", "why_tests_cant": "the category is found by substring search; names that contain ids of categories do not occur in small tests", "anchors": ["projects/tools/seg_shapenet.py:generate_filelist"]}
{"id": "C112", "title": "ModelNet40 lists give each file the number of its class", "statement": "get_filelist lists files that exist under the asked part and have the suffix, with the number of class names that come before theirs as label; with ratio 1 all of them; with a smaller ratio a part of the list, with at least one file of each class that has one; the result does not depend on the order in which the file system lists names; another number of classes than 40 raises AssertionError.", "quantifier": "all folders, suffixes, ratios in (0, 1] and all monotone roundings exact on integers", "why_tests_cant": "labels of training and testing must agree though the folders are listed separately and in arbitrary order; tests see one file system", "anchors": ["projects/tools/cls_modelnet.py:get_filelist"]}
{"id": "C113", "title": "SemanticKITTI lists split the sequences into training, validation and test", "statement": "generate_file_list puts every scan of the sequences 00 to 21 into exactly one of train, val and test: 08 into val, the others up to 10 into train, the rest into test; train_val is train followed by val; nothing else is listed and the order in which the file system lists names plays no role.", "quantifier": "all contents of the folders", "why_tests_cant": "a sequence in two lists or in none leaks or loses data without an exception", "anchors": ["projects/tools/seg_kitti.py:generate_file_list"]}
{"id": "C114", "title": "Image2Shape lists split the shapes that have images and points", "statement": "create_filelist lists a shape exactly if it has both renderings and points, never for both training and testing; of the n shapes of each category the first int(0.8 n) in order of names are for training; the order in which the file system lists names plays no role.", "quantifier": "all contents of the folders, all lists of categories without slashes", "why_tests_cant": "overlap of training and testing shows only in scores that are too good", "anchors": ["projects/tools/image2shape.py:create_filelist"]}
{"id": "C115", "title": "Convolving only the non-empty nodes is convolving all nodes with zeros at the empty ones", "statement": "For features of the non-empty nodes, OctreeConv with nempty=True gives what one gets by octree_pad with zeros, OctreeConv with nempty=False and the same weights, and octree_depad; for all kernels and both strides, whatever the buffer sizes and methods of the two layers.", "quantifier": "all valid octrees, kernels, strides, weights and features", "why_tests_cant": "the two settings use different neighbour tables; tests compare a few octrees", "anchors": ["ocnn/nn/octree_conv.py:OctreeConv", "ocnn/nn/octree_pad.py:octree_pad", "ocnn/nn/octree_pad.py:octree_depad"]}
{"id": "C116", "title": "Octree convolution is the convolution of the voxel grid at the nodes", "statement": "octree2voxel of the result of OctreeConv has, at each node, the value of the ordinary zero-padded 3D convolution of octree2voxel of the input (at the even positions of the finer grid for stride 2), and zero where there is no node; in layers up to full_depth it is the ordinary convolution everywhere.", "quantifier": "all valid octrees, kernels, strides, weights and features", "why_tests_cant": "comparing with a dense convolution for all octrees is impossible; off-by-one errors at boundaries of samples or of the cube show only for some octrees", "anchors": ["ocnn/nn/octree_conv.py:OctreeConv", "ocnn/nn/octree2vox.py:octree2voxel"]}
{"id": "C117", "title": "Linear interpolation is exact for linear fields and stays in the range of the features", "statement": "If the features are an affine function of the centres of the nodes, OctreeInterp (linear) returns this function of the query point, up to the factor 1/(1 + 1e-12), wherever the cells around the point are nodes; this includes all interior points in layers up to full_depth. For all features, the results lie between the smallest and the largest feature or zero.", "quantifier": "all valid octrees, depths, query points and features", "why_tests_cant": "a wrong corner or weight is hidden by averaging and shows only as a small blur", "anchors": ["ocnn/nn/octree_interp.py:octree_linear_pts"]}
{"id": "C118", "title": "A stack of convolutions sees only the neighbourhood of a node", "statement": "The result of n convolutions of stride 1, with arbitrary functions of the rows between them, at a node depends only on the features of nodes of the same sample at most n cells away along every axis.", "quantifier": "all valid octrees, numbers of layers, kernels, weights and features", "why_tests_cant": "a wrong entry in a neighbour table would let far-away nodes influence a result, for some octrees only", "anchors": ["ocnn/nn/octree_conv.py:OctreeConv", "ocnn/modules/modules.py:OctreeConvBnRelu"]}
{"id": "C119", "title": "depth and full_depth of an octree only set its resolution", "statement": "Octrees built from one point cloud with different depths have the same nodes at every common depth; octrees with different full_depth have the same nodes below both full layers, the same non-empty nodes from there on and, for equal depth, the same leaf signals and point indices; adding points never removes a node and never empties one.", "quantifier": "all legal point clouds, depths and full depths", "why_tests_cant": "two octrees must be compared at all depths for all clouds", "anchors": ["ocnn/octree/octree.py:Octree.build_octree"]}
{"id": "C120", "title": "scatter_add adds along the chosen dimension of a tensor of any rank", "statement": "scatter_add(src, index, dim, None, dim_size) with a one-dimensional index has the shape of src with dim_size (by default one more than the largest index) along dim, and its entry at (a, j, b) is the sum of the entries (a, k, b) of src with index[k] = j; negative dimensions count from the back; an index that is negative or too large is rejected.", "quantifier": "all ranks, shapes, dimensions, indices and values", "why_tests_cant": "broadcasting of the index is tested only for matrices and the first dimension", "anchors": ["ocnn/utils.py:scatter_add", "ocnn/utils.py:broadcast"]}
{"id": "C121", "title": "Convolution weights are initialised by Xavier's rule for their layout", "statement": "xavier_uniform_ fills weights of shape (kdim, in, out) from the symmetric interval whose uniform distribution has variance 2 / (fan_in + fan_out), the fans being those that PyTorch gives for the transposed shape (out, in, kdim).", "quantifier": "all kernel sizes, channel numbers and random numbers", "why_tests_cant": "a wrong fan changes only the scale of random numbers", "anchors": ["ocnn/utils.py:xavier_uniform_"]}
{"id": "C122", "title": "Points.save writes exactly the requested attributes", "statement": "An npz file has the array of each attribute that is requested and present, under its documented name and with the rows of the cloud, and nothing else; an xyz file has one line per point with the requested attributes in the order of the letters; other letters and other extensions are rejected.", "quantifier": "all point clouds, file names and sequences of letters, repeated or not, of either case", "why_tests_cant": "tests save one cloud with the default letters", "anchors": ["ocnn/octree/points.py:Points.save"]}
{"id": "C123", "title": "The example octree has the documented points", "statement": "build_example_octree accepts 1, 2 or 3 points and rejects other numbers; for all legal depths the result is a valid octree of one sample whose non-empty nodes, from full_depth on, are exactly the cells of the example points.", "quantifier": "all depths, full depths and numbers of points", "why_tests_cant": "tests use the example octree at two depths", "anchors": ["ocnn/utils.py:build_example_octree"]}
{"id": "C124", "title": "Upgraded checkpoints have the same convolution weights", "statement": "The upgrade tool turns convolution weights with one row of in * K numbers per output into weights of shape (K, in, out) with the same numbers, so that summing over kernel elements and channels gives the old matrix product; K is 8 for down- and upsampling layers and 27 otherwise.", "quantifier": "all numbers of channels, weights and layer names", "why_tests_cant": "a transposed view has a legal shape and wrong numbers", "anchors": ["projects/tools/upgrade_ckpt.py:14-33"]}
{"id": "C125", "title": "Upgraded checkpoints name the layers consistently", "statement": "The weight and the bias of each 1x1 convolution get the names of one linear layer at the same place, the weight loses its last dimension of size 1, and tensors with other names are kept.", "quantifier": "all names of modules and tensors", "why_tests_cant": "names are replaced as substrings; tests cannot try all module names", "anchors": ["projects/tools/upgrade_ckpt.py:14-33"]}
{"id": "C126", "title": "The clean-up tool keeps one checkpoint per folder, the last but one in order", "statement": "From a folder with at least two files all are removed but the last one but one in alphabetical order, with the names of the solver the weights of the last epoch; a single file is kept.", "quantifier": "all sets of file names", "why_tests_cant": "a wrong slice deletes the wrong checkpoint for some numbers of files only", "anchors": ["projects/tools/cleanup_ckpt.py:24-29"]}
{"id": "C127", "title": "The parameter listing counts each variable once", "statement": "The listing has one line for each variable whose name contains no skipped word, in order, numbered from 0, with its number of entries; the total is the sum of these numbers.", "quantifier": "all checkpoints and skipped words", "why_tests_cant": "the skip flag is set in a loop over words and depends on their order if handled wrongly", "anchors": ["projects/tools/parse_ckpt.py:list_var"]}
{"id": "C128", "title": "Nearest interpolation at the cloud of an octree reads the leaf features", "statement": "With the octree and the indices that build_octree returns for a cloud, nearest interpolation of the features of the finest layer at the points of the cloud gives each point the row of its index; at the stored averaged points it gives the features themselves.", "quantifier": "all legal point clouds, features of non-empty or of all nodes", "why_tests_cant": "the search structure, the scaling of coordinates and the leaf order must agree for every cloud", "anchors": ["ocnn/nn/octree_interp.py:OctreeInterp", "ocnn/octree/octree.py:Octree.build_octree"]}
{"id": "C129", "title": "Flipping a point cloud flips its octree", "statement": "Flipping a cloud along some axes and building the octree gives, at every depth, the reflected nodes with the same emptiness; each point falls into the reflected leaf, and the leaf has the reflected mean position, the same features and the reflected normal.", "quantifier": "all legal point clouds none of whose coordinates along a flipped axis lies on a plane between finest cells, all sets of axes", "why_tests_cant": "reflection reorders the keys of all nodes", "anchors": ["ocnn/octree/points.py:Points.flip", "ocnn/octree/octree.py:Octree.build_octree"]}
{"id": "C130", "title": "Max pooling level by level pools over all descendants", "statement": "Pooling non-empty node features from depth d + n down to d one level at a time gives each node the entrywise least upper bound over its non-empty descendants at depth d + n; nearest upsampling followed by max pooling gives the feature back.", "quantifier": "all valid octrees, depths, numbers of levels and features; nodes without non-empty children get 0, which built octrees have no case of from full_depth on", "why_tests_cant": "the composition must hold for all trees and numbers of levels", "anchors": ["ocnn/nn/octree_pool.py:octree_max_pool", "ocnn/nn/octree_interp.py:octree_nearest_upsample"]}
{"id": "C131", "title": "Group normalisation gives every sample normalised statistics", "statement": "With the initial parameters, in every sample and group of channels the sum of the outputs is the sum of the inputs times eps / (n + eps) over the standard deviation, the sum of their squares is (n + eps) * var / (var + eps), less than n + eps, and so is the square of every entry, n being the number of entries of the group.", "quantifier": "all octrees, features, groups and positive eps", "why_tests_cant": "tests compare with PyTorch for one sample up to a tolerance", "anchors": ["ocnn/nn/octree_norm.py:OctreeGroupNorm"]}
{"id": "C132", "title": "ModelNet40 meshes are scaled into the unit ball", "statement": "If the enclosing-ball routine finds the smallest enclosing ball, the smallest enclosing ball of the normalised vertices is the unit ball at the origin and the result does not depend on the position and size of the mesh; if it fails, the vertices lie in an open cube around the origin; align_y rotates the z axis to the y axis.", "quantifier": "all lists of vertices of positive extent", "why_tests_cant": "floating-point meshes of a data set are a sample; the small constant in the divisor looks as if it broke scale invariance", "anchors": ["projects/tools/cls_modelnet.py:convert_mesh_to_points"]}
{"id": "C133", "title": "Cleaning an OFF file only repairs its header", "statement": "A file that begins with OFF without a line break gets one there and keeps all other characters; other files are not changed; cleaning twice is cleaning once.", "quantifier": "all texts", "why_tests_cant": "tests cannot try all headers", "anchors": ["projects/tools/cls_modelnet.py:_clean_off_file"]}
{"id": "C134", "title": "Converted ModelNet40 meshes are read back by the data set", "statement": "The point file written for each mesh is found by the data set reader under its listed name and has the sampled points and normals in single precision; a file of another type is rejected.", "quantifier": "all mesh names, sampled points and normals", "why_tests_cant": "names are built by cutting suffixes in one tool and joined in another", "anchors": ["projects/tools/cls_modelnet.py:convert_mesh_to_points", "projects/datascts/modelnet40.py:read_file"]}
{"id": "C135", "title": "The completion tools write lists and files that the completion data set reads", "statement": "Each line of a list that names one original file becomes the same line with the new ending, under a list name with that ending; the reader of the completion data set gets from each converted file the points and normals of the original in single precision, and no other file is written.", "quantifier": "all shape names and clouds", "why_tests_cant": "two tools and one reader must agree on names and arrays", "anchors": ["projects/tools/ae_shapenet.py:_convert_ply_to_numpy", "projects/tools/ae_shapenet.py:_create_filelist", "projects/datascts/completion.py:ReadFile"]}
{"id": "C136", "title": "Image-to-shape data finds the rendering and the points of each shape", "statement": "The image is in the folder of the same shape among the renderings, its number is written with two digits and distinct numbers below 24 give distinct files, and point files of both supported types with the same content give the same data.", "quantifier": "all shape names, rendering numbers and point files", "why_tests_cant": "file naming is tested for the data set at hand only", "anchors": ["projects/datascts/image2shape.py"]}
{"id": "C137", "title": "Drop path does not change the mean of the features", "statement": "In training mode with a drop probability m / N, drawing the random numbers of the samples uniformly from the N equally spaced values, the mean of each output entry over all draws is the input entry; without scaling it is the keep probability times the entry. Each draw drops or keeps whole samples and succeeds.", "quantifier": "all valid octrees, layers, features, batch sizes, probabilities m / N with 0 < m < N and both settings of nempty and scale_by_keep", "why_tests_cant": "a test sees a few draws; the mean is over all of them", "anchors": ["ocnn/nn/octree_drop.py:OctreeDropPath"]}
{"id": "C138", "title": "Convolution and transposed convolution with kernel 2 and stride 2 are block products", "statement": "With kernel size 2 and stride 2 on all nodes, the output of the convolution at non-empty node j of the coarser layer is the rows 8j to 8j + 7 of the input times the eight matrices plus the bias, and zero at empty nodes; the transposed convolution gives row 8j + k as row j of the non-empty nodes times the transposed matrix k plus the bias.", "quantifier": "all valid octrees, layers, features, weights and both methods of computing", "why_tests_cant": "agreement must hold for all trees and chunk sizes", "anchors": ["ocnn/nn/octree_conv.py:OctreeConv", "ocnn/nn/octree_conv.py:OctreeDeconv"]}
{"id": "C139", "title": "Octrees are self-similar", "statement": "Shrinking a cloud by two into one octant of the cube and building an octree of one more level gives the same tree in this octant: the same leaf number of each point, the non-empty nodes and the nodes below the full layers moved and in the same order, moved leaf positions, the same features and normals.", "quantifier": "all legal point clouds, octants and full depths of the two octrees, depth up to 15", "why_tests_cant": "it relates two runs on different depths for all clouds", "anchors": ["ocnn/octree/octree.py:Octree.build_octree"]}
{"id": "C140", "title": "The training loss bounds the number of wrong predictions", "statement": "The loss is the mean of the negative logarithms of the probabilities of the right classes; it is not negative, and log 2 times the proportion of wrong predictions is not greater than the loss, so that a loss below log 2 divided by the batch size means that all predictions are right. Adding a constant to the scores of a row changes neither loss nor accuracy. A label that is not a class raises; the label -100 is not counted.", "quantifier": "all batches of real scores and labels", "why_tests_cant": "an inequality between two metrics for all real scores", "anchors": ["projects/classification.py:ClsSolver.train_step", "projects/classification.py:ClsSolver.test_step"]}
{"id": "C141", "title": "Votes of the segmentation evaluation count how often a point was seen", "statement": "The probabilities of a row are positive, add up to 1 and are in the order of the scores. After an evaluation with any number of repetitions, the accumulated scores of each point of each file are not negative and add up to the number of times the point was inside the clipped cloud.", "quantifier": "all sequences of batches with consistent sizes, all real scores", "why_tests_cant": "the accumulation over all batches of a run cannot be enumerated", "anchors": ["projects/segmentation.py:SegSolver.eval_step"]}
{"id": "C142", "title": "Numbers of nodes of an octree", "statement": "In a built octree, layers up to full_depth have batch_size * 8^d nodes, each further layer has eight nodes for each non-empty node of the layer above, from full_depth on the number of non-empty nodes is the number of occupied cells, is not greater than the number of points and does not decrease with the depth, so that layers have at most eight times as many nodes as there are points; and there are as many leaves as points exactly if no two points of a sample share a finest cell.", "quantifier": "all legal point clouds, depths and batch sizes", "why_tests_cant": "counts depend on the whole cloud", "anchors": ["ocnn/octree/octree.py:Octree.build_octree", "ocnn/octree/octree.py:Octree.octree_split", "ocnn/octree/octree.py:Octree.octree_grow"]}
{"id": "C143", "title": "The training and test steps of the projects run on every batch of non-empty clouds", "statement": "For each network that the classification and segmentation projects offer and each feature string with the right number of channels, the step from point clouds to logits (octrees, merging, features, network, and for segmentation the logits and labels of the points above the mask) succeeds for each batch of legal clouds with at least one point each, in evaluation mode with any number of clouds and in training mode with two or more; classification gives one row of logits per cloud, segmentation one row per point whose label is above the mask.", "quantifier": "all batches of clouds, depths, networks and parameter values", "why_tests_cant": "tests run a network on a few clouds; a crash on some shape of octree shows only in long runs", "anchors": ["projects/classification.py:ClsSolver.forward", "projects/segmentation.py:SegSolver.model_forward"]}
{"id": "C144", "title": "The shipped configurations run", "statement": "With the configuration files of ModelNet40 (LeNet and HRNet), ScanNet, KITTI and ShapeNet segmentation, the numbers of channels agree with the feature strings, and the steps succeed for each batch of legal clouds with the attributes that the data sets have. The commands for the ShapeNet categories run for each depth from 3 (SegNet) or 5 (UNet) to 16 and give one logit per part.", "quantifier": "all batches of clouds; all categories and depths for ShapeNet", "why_tests_cant": "a run of each configuration needs the data and hours; the claim is for every batch", "anchors": ["projects/configs/cls_m40.yaml", "projects/configs/seg_scannet.yaml", "projects/scripts/run_seg_shapenet.py"]}
{"id": "C145", "title": "Keys do not depend on devices and on earlier calls", "statement": "In every sequence of calls of the encoder and the decoder with tensors on any devices, each call returns the interleaved bits or the coordinates of its own arguments.", "quantifier": "all sequences of calls, devices, coordinates and depths up to 16", "why_tests_cant": "the cached tables make the functions stateful; histories cannot be enumerated", "anchors": ["ocnn/octree/shuffled_key.py:KeyLUT.encode_lut", "ocnn/octree/shuffled_key.py:KeyLUT.decode_lut", "ocnn/octree/shuffled_key.py:xyz2key", "ocnn/octree/shuffled_key.py:key2xyz"]}
{"id": "C146", "title": "The batch index of a key may be missing, a tensor or an integer", "statement": "As documented, the encoder accepts no batch index, a tensor or an integer below 32768, and puts it into the bits 48 to 62 of the key.", "quantifier": "all coordinates, batch indices, depths up to 16, devices and earlier calls", "why_tests_cant": "a wrong argument type shows only when somebody uses it", "anchors": ["ocnn/octree/shuffled_key.py:xyz2key"]}
{"id": "C147", "title": "Gradient checkpointing of a convolution gives the result of the convolution", "statement": "The wrapper that runs a convolution under gradient checkpointing returns what the convolution returns.", "quantifier": "all convolutions and features", "why_tests_cant": "the wrapper is not called in the package", "anchors": ["ocnn/modules/modules.py:ckpt_conv_wrapper"]}
{"id": "C148", "title": "The order of the clouds in a batch does not matter", "statement": "When the clouds of a batch are given in another order, the classification step returns the same rows of logits in that order, and the segmentation step returns for each point of each cloud the same row of logits. This holds in evaluation mode and in training mode, where batch normalization uses the statistics of the whole batch, provided that dropout draws the same numbers for a sample in both runs.", "quantifier": "all batches of legal clouds, permutations, depths, networks and parameter values", "why_tests_cant": "data loaders shuffle; a dependence on the position in the batch is hidden in the noise of training", "anchors": ["projects/classification.py:ClsSolver.forward", "projects/segmentation.py:SegSolver.model_forward", "ocnn/octree/octree.py:merge_octrees"]}
{"id": "C149", "title": "Voting over epochs and chunks gives each vertex of a scene its label", "statement": "After an evaluation of several epochs, the conversion of the saved predictions writes one file per scene with one label per vertex: the raw id of the first class whose probability, summed over all epochs and all chunks in which the vertex was kept, is largest. A vertex that was always clipped gets the first id. The validation command then prints the mean share of right labels of the scenes and the mean IoU of the classes over all scenes for these labels; if the true class always has most votes it prints accuracy 1 and IoU 1 up to the regularisation.", "quantifier": "all file lists of scenes and chunks numbered below ten, numbers of epochs, batches, clipping masks and network outputs", "why_tests_cant": "the votes pass through three programs and two kinds of files; runs with 12 and 72 epochs on real scans are too slow for tests", "anchors": ["projects/segmentation.py:SegSolver.eval_step", "projects/tools/seg_scannet.py:generate_output_seg", "projects/tools/seg_scannet.py:calc_iou", "projects/scripts/run_seg_scannet.py:validate"]}
{"id": "C150", "title": "32-bit counters suffice below 2^31 nodes per layer", "statement": "Node counts and child indices are stored as 32-bit integers. Building, merging, growing by a decoder and constructing neighbour tables nevertheless give exactly the octree of unbounded arithmetic whenever every layer of it has fewer than 2^31 nodes. Starting a full octree raises when its finest layer has 2^31 nodes or more; a child index of 2^28 or more would give a wrong, negative neighbour.", "quantifier": "all legal clouds and batches, mergeable lists of octrees, 0/1 predictors, valid octrees, depths up to 16", "why_tests_cant": "an overflow needs an octree with about 2^28 occupied nodes, which no test can allocate", "anchors": ["ocnn/octree/octree.py:Octree.octree_grow_full", "ocnn/octree/octree.py:Octree.octree_split", "ocnn/octree/octree.py:Octree.octree_grow", "ocnn/octree/octree.py:Octree.build_octree", "ocnn/octree/octree.py:Octree.construct_all_neigh", "ocnn/octree/octree.py:merge_octrees", "ocnn/octree/octree.py:init_octree"]}
{"id": "C151", "title": "Rounding error of convolutions", "statement": "A convolution computed in floating point, with either the direct or the buffered method, any sufficient buffer size, any order of summation and any rounding with relative error u and underflow e, differs from the exact convolution by at most ((1+u)^n - 1) times the convolution of the absolute values plus n e (1+u)^n, where n is one more than the number of products per output; two such results differ by at most twice that. The two methods add up exactly the same products, and the data and weight gradients of the buffered method satisfy the same kind of bound.", "quantifier": "all valid octrees, layers, kernels, strides, nempty modes, buffer sizes, rational data and weights, u and e >= 0; overflow is excluded", "why_tests_cant": "tests compare the two methods on a few octrees with a fixed tolerance on one device", "anchors": ["ocnn/nn/octree_conv.py:OctreeConv.forward", "ocnn/nn/octree_conv.py:OctreeConvBase.forward_gemm", "ocnn/nn/octree_conv.py:OctreeConvBase.backward_gemm", "ocnn/nn/octree_conv.py:OctreeConvBase.weight_gemm"]}
{"id": "C152", "title": "A layer keeps the kernel size it was constructed with", "statement": "Whatever layers a program constructs and runs, and however it shares lists of kernel sizes between them or relies on the default argument, each layer uses the kernel size that its list had when the layer was constructed, and constructing a layer does not change the list of the caller.", "quantifier": "all sequences of constructing and running layers and changing lists", "why_tests_cant": "the default argument is one object shared by all layers of a program and is changed by the first constructor; tests construct few layers", "anchors": ["ocnn/utils.py:resize_with_last_val", "ocnn/nn/octree_conv.py:OctreeConvBase.__init__", "ocnn/nn/octree_conv.py:OctreeConv.forward", "ocnn/nn/octree_dwconv.py:OctreeDWConv.forward"]}
{"id": "C153", "title": "Transformations of a cloud compose and can be undone", "statement": "Two translations of a point cloud are one translation by the sum, two rotations about the same axis are one by the sum of the angles, and two scalings by positive factors of a cloud with normals of length one are one scaling by the products; the opposite translation, the opposite angles one axis at a time starting from the last, and the inverse factors restore points, normals and all other attributes.", "quantifier": "all clouds, displacements, angles and positive factors of at most 10^12, in exact arithmetic", "why_tests_cant": "an augmentation pipeline composes random transformations; tests apply single transformations to a few points", "anchors": ["ocnn/octree/points.py:Points.translate", "ocnn/octree/points.py:Points.rotate", "ocnn/octree/points.py:Points.scale"]}
{"id": "C154", "title": "Scaling by -1 along axes is flipping", "statement": "Scaling a point cloud with normals of length one by factors that are -1 along some axes and 1 along the others has the same effect as flipping the cloud along these axes.", "quantifier": "all clouds and all strings of axes", "why_tests_cant": "depends on how normals are treated for each combination of axes", "anchors": ["ocnn/octree/points.py:Points.scale", "ocnn/octree/points.py:Points.flip"]}
{"id": "C155", "title": "Turning a cloud is turning the kernels", "statement": "If a point cloud with its normals is turned by one of the 48 symmetries of the cube, its octree is the turned octree, with the same features and displacements, and turned normals, local and global coordinates. ResNet, HRNet and UNet give for the turned octree, with the matrices of all kernels permuted accordingly and all other parameters unchanged, the logits of the original octree; UNet gives every turned query point the prediction of the original point. This holds in evaluation and training mode, with and without empty nodes.", "quantifier": "all 48 symmetries, parameters, depths, stages, clouds with no reversed coordinate on a plane between finest cells, end to end for the features D and F", "why_tests_cant": "a wrong order of octants or kernel offsets in any one layer shows only for particular symmetries and trained weights; tests compare single layers with a dense reference", "anchors": ["ocnn/octree/octree.py:Octree.build_octree", "ocnn/nn/octree_conv.py:OctreeConv.forward", "ocnn/nn/octree_pool.py:OctreeMaxPool.forward", "ocnn/nn/octree_interp.py:OctreeInterp.forward", "ocnn/models/resnet.py:ResNet.forward", "ocnn/models/hrnet.py:HRNet.forward", "ocnn/models/unet.py:UNet.forward"]}
{"id": "C156", "title": "Linear upsampling is trilinear interpolation between node centres", "statement": "OctreeUpsample with method linear returns one row per node of the finer layer: the mean of the features of the existing coarse nodes of its sample around its centre, weighted by the trilinear weights. For one level these are 27/64 for the parent, and 9/64, 3/64, 1/64 for the nodes beyond the faces, edges and the corner of the parent on the side of the node. Features that are an affine function of the position are continued exactly in full layers.", "quantifier": "all octrees, depths, differences of depth, features, with and without empty nodes", "why_tests_cant": "the weights at particular nodes depend on which neighbours exist and on how the coordinates of missing ones are encoded; tests compare one small octree with a stored result", "anchors": ["ocnn/nn/octree_interp.py:OctreeUpsample.forward", "ocnn/nn/octree_interp.py:octree_linear_pts"]}
{"id": "C157", "title": "Generation commutes with turning", "statement": "If every kernel of a generating network (AutoEncoder, the decoders of the shape completion and image-to-shape networks) is turned by a symmetry of the cube, then generating from the turned code gives the turned shape: the turned octree, the turned logits of all layers and the turned signal. The same holds for AutoEncoder.forward with update_octree=True on the turned input octree. Each layer must have a node predicted to be non-empty.", "quantifier": "all 48 symmetries, parameters, codes, depths up to 9, batch sizes, training and evaluation mode", "why_tests_cant": "the octree is grown by the predictions themselves, so any asymmetry in one layer, in the order of children or in the neighbour tables changes which nodes exist later; tests of single layers do not run the loop", "anchors": ["ocnn/models/autoencoder.py:AutoEncoder.decoder", "ocnn/models/autoencoder.py:AutoEncoder.decode_code", "ocnn/models/autoencoder.py:AutoEncoder.forward", "ocnn/octree/octree.py:Octree.octree_split", "ocnn/octree/octree.py:Octree.octree_grow"]}
{"id": "C158", "title": "The completion network returns a prediction for every octant of the output octree", "statement": "Completing a partial shape with OUNet: with a ground truth octree the network returns a pair of logits for every octant of that octree at every depth from the full depth on and a signal for every non-empty octant of its finest depth, whatever octants input and ground truth share; the features that the encoder computed at an octant of the input are added at the same octant of the output, if it has that octant, and nowhere else; without a ground truth it generates a well-formed octree of the depth of the network with the samples of the input. If the training run on the ground truth predicts exactly its non-empty octants, the free completion generates the ground truth with the same logits and the same signal, and the run along a generated octree repeats the generation. In evaluation mode every pair of a batch is completed as it is alone.", "quantifier": "for all parameters, input and output octrees, batch sizes, depths up to 9 and full depths, in training and evaluation mode", "why_tests_cant": "The training run and the free run take different branches at every depth and meet only if all intermediate octrees agree; the octrees of the two arguments of the alignment vary independently.", "anchors": ["ocnn/models/ounet.py:OUNet.encoder", "ocnn/models/ounet.py:OUNet.decoder", "ocnn/models/ounet.py:OUNet.forward", "projects/completion.py:CompletionSolver.model_forward"]}
{"id": "C159", "title": "Points outside the cube are not mixed in with the others", "statement": "A point outside the cube is refused by build_octree, or at least never counted in a node that does not contain it. Points inside the cube are counted in the node that contains them, wherever the other points are.", "quantifier": "for all clouds with arbitrary coordinates, depths up to 16, batch sizes", "why_tests_cant": "The points that leave the cube are a matter of the data; the octree built from them looks like any other.", "anchors": ["ocnn/octree/octree.py:Octree.build_octree", "ocnn/octree/shuffled_key.py:xyz2key"]}
{"id": "C160", "title": "Normalising removes position and size", "statement": "normalize(*bbox(), scale) of a cloud does not depend on where the cloud is nor on how large it is: moving or magnifying the cloud beforehand does not change the result.", "quantifier": "for all non-empty clouds, translations and positive factors", "why_tests_cant": "An invariance over a continuum of moves and factors.", "anchors": ["ocnn/octree/points.py:Points.normalize", "ocnn/octree/points.py:Points.bbox", "ocnn/octree/points.py:Points.translate"]}
{"id": "C161", "title": "The stored position of a leaf is a point of the leaf, in single precision too", "statement": "Building an octree from a cloud stores, for every non-empty finest node, the average of the positions of its points. With single precision arithmetic and an unspecified order of the additions, this average is still inside the node, the average combines exactly the points that the returned index assigns to the node, and it differs from the exact average by a bound that depends on the number of points only.", "quantifier": "all octree and cloud parameters, batch sizes, clouds with coordinates below 1 - 2^-24, leaves with any number of points, orders in which the points of a leaf are added up", "why_tests_cant": "Whether an average leaves its node depends on the number of points in the node, the depth, the position and the order of summation; test clouds have few points per node and shallow octrees, where it never happens.", "anchors": ["ocnn/octree/octree.py:Octree.build_octree", "ocnn/utils.py:scatter_add"]}
{"id": "C162", "title": "A point of the cloud finds the ancestor of its leaf at every depth", "statement": "With the octree and the point indices returned by build_octree, nearest interpolation at the points of the cloud, at any depth and for features of all or of the non-empty nodes, with or without bound check, gives each point the features of the node of that depth that contains the leaf of its index - also when the coordinates are single precision numbers and building and interpolating round them.", "quantifier": "all legal point clouds (in single precision: coordinates below 1 - 2^-24), depths up to that of the octree, batch sizes, features", "why_tests_cant": "Building scales the coordinates for the finest depth and interpolation for the depth of the features; that the two roundings never disagree about the cell is a statement about all coordinates and depths.", "anchors": ["ocnn/octree/octree.py:Octree.build_octree", "ocnn/nn/octree_interp.py:octree_nearest_pts", "ocnn/nn/octree_interp.py:OctreeInterp"]}
{"id": "C163", "title": "Global pooling returns the mean of a sample in the precision of the features", "statement": "Global pooling with features of p significant bits returns, for every sample, the mean of the features of its nodes up to a relative error of about (number of nodes + 1) * 2^-p of the mean absolute value, in whatever order the rows are added up; the nodes of the sample are counted exactly; and a sample without nodes gets 0.", "quantifier": "all octrees, depths, batch sizes, all or only non-empty nodes, features, precisions p (float32 24, float16 11, bfloat16 8), orders of summation", "why_tests_cant": "The nodes are counted by adding up ones in the precision of the features. The count is exact up to 2^p nodes and can stop there; unit tests pool a few nodes in single precision.", "anchors": ["ocnn/nn/octree_pool.py:octree_global_pool", "ocnn/nn/octree_norm.py:OctreeGroupNorm.forward", "ocnn/utils.py:scatter_add"]}
{"id": "C164", "title": "A normalised cloud fits the cube in single precision", "statement": "Normalising a cloud by its own bounding box with scale s gives, in single precision too, coordinates between -s and s up to rounding; with scale 1 or less the octree that is then built from the cloud stores every point in the leaf that contains it.", "quantifier": "all clouds with any extent and any distance from the origin, scales, octree parameters, batch sizes", "why_tests_cant": "The constant 1e-6 that is to keep the points off the faces of the cube, and the rounding of the centre, depend on the magnitude of the coordinates; test clouds are small and near the origin.", "anchors": ["ocnn/octree/points.py:Points.normalize", "ocnn/octree/points.py:Points.bbox", "ocnn/octree/octree.py:Octree.build_octree"]}
{"id": "C165", "title": "Clipping makes any cloud fit for building in single precision", "statement": "Whatever the coordinates of a cloud are, after clipping it to [-1, 1] with a margin between 2^-22 and 1 (the default is 0.01) an octree can be built from it in single precision: exactly the points with coordinates between the bounds are kept, with their attributes and samples, and each is stored in a leaf of its sample that contains it up to 2^-24. Without a margin this is false.", "quantifier": "all clouds with any coordinates, attributes and batch sizes, margins, octree parameters", "why_tests_cant": "The failures of building in single precision occur at single coordinates next to the faces of the cube; that the margin excludes all of them is a statement about all coordinates.", "anchors": ["ocnn/octree/points.py:Points.clip", "ocnn/octree/points.py:Points.inbox_mask", "ocnn/octree/octree.py:Octree.build_octree"]}
{"id": "C166", "title": "In-place activations never overwrite anything that is used later", "statement": "The forward passes of the convolutions, blocks and networks leave every tensor that existed before untouched, in particular the features handed in and those stored in the octree, also when the pass raises; the result is the one computed without sharing memory, the skip connections of the U-Net carry what the encoder computed, and the backward pass never fails because a saved tensor has been modified.", "quantifier": "all networks, stages, block numbers, channels, kernel sizes, strides, nempty, bias and method settings, octrees, parameters, training and evaluation mode, states of the memory before the call", "why_tests_cant": "Whether two names share memory depends on the configuration (no projection in a residual block, equal depths in a transition, no dropout in evaluation, zero blocks); a test sees one configuration, and a wrong value after an in-place operation is still a plausible value.", "anchors": ["ocnn/modules/resblocks.py:OctreeResBlock.forward", "ocnn/modules/resblocks.py:OctreeResBlock2.forward", "ocnn/modules/modules.py:OctreeConvBnRelu.forward", "ocnn/modules/modules.py:Conv1x1BnRelu.forward", "ocnn/nn/octree_conv.py:OctreeConv.forward", "ocnn/models/unet.py:UNet.forward", "ocnn/models/hrnet.py:HRNet.forward"]}
{"id": "C167", "title": "Checkpointing residual blocks changes memory, not the training result", "statement": "A step of training or evaluation with OctreeResBlocks(use_checkpoint=True) has the same effect as with use_checkpoint=False: the same output or error, blocks that are run again in the backward pass reproduce what they returned, so gradients are taken at the same point, and the running statistics of the batch normalizations after the step are the same.", "quantifier": "All octrees, depths, tensors, numbers of blocks, block kinds, channels, parameters, running statistics before the step, and both modes", "why_tests_cant": "The outputs agree, so comparing them shows nothing; the difference is in buffers that are read only in evaluation mode, later, and it vanishes when the statistics have converged.", "anchors": ["ocnn/modules/resblocks.py:OctreeResBlocks", "ocnn/modules/resblocks.py:OctreeResBlock", "ocnn/modules/resblocks.py:OctreeResBlock2"]}
{"id": "C168", "title": "The commands of the documented ScanNet workflow find their files", "statement": "After the data set has been prepared by the documented command, training, training on all scenes, validation and test read file lists, point clouds, labels, predictions and checkpoints that the preceding commands have written, for every alias, and leave the labels of every listed scene.", "quantifier": "All archives of file lists, all sets of scenes, all folders of the preparation, all GPUs, aliases, ports and checkpoints.", "why_tests_cant": "The commands need the licensed data set, which no test has, and each command works when its own folder happens to exist; only the comparison of what one writes with what the next reads shows the mismatch.", "anchors": ["projects/scripts/run_seg_scannet.py:train", "projects/scripts/run_seg_scannet.py:train_all", "projects/scripts/run_seg_scannet.py:validate", "projects/scripts/run_seg_scannet.py:test", "projects/tools/seg_scannet.py:process_scannet"]}
{"id": "C169", "title": "What U-Net predicts at a point depends only on the points near it", "statement": "In evaluation mode the prediction of UNet at a query point depends only on the points (with normals and features) of the same sample whose coordinates differ by less than a fixed radius; the points further away, the other samples and the order of the points may be changed at will. For the default network the radius is 365 finest voxels (365.5 with linear interpolation), and 16 more if empty nodes take part. Hence cropping a scene with inbox_mask to a box that leaves this margin does not change the prediction: a scene can be processed in overlapping boxes.", "quantifier": "All parameters in evaluation mode, all legal pairs of clouds with the same points near the query, all features, all configurations with as many channels as stages, all depths, both interpolations; with linear interpolation the query is half a cell away from the sides of the cube.", "why_tests_cant": "Locality is a statement about all changes far away; a test changes a few clouds, and a receptive field that is off by one voxel shows only if something happens to be just there.", "anchors": ["ocnn/models/unet.py:UNet.forward", "ocnn/nn/octree_conv.py:OctreeConv.forward", "ocnn/nn/octree_interp.py:OctreeInterp.forward", "ocnn/octree/points.py:Points.inbox_mask", "ocnn/octree/points.py:Points.__getitem__"]}
{"id": "C170", "title": "The octree of two clouds together has the nodes of both", "statement": "Building an octree from the points of two clouds together gives, at every depth, exactly the nodes of the two octrees, and a node is non-empty iff it is non-empty in one of them; so adding points never removes a node. The position and feature stored for a leaf is the mean of the two stored ones, weighted by the numbers of points in the leaf.", "quantifier": "All pairs of legal clouds, batch sizes, depths and full depths.", "why_tests_cant": "A statement about all pairs of clouds and all nodes; a test compares single clouds.", "anchors": ["ocnn/octree/octree.py:Octree.build_octree"]}
{"id": "C171", "title": "Shapes stored in half precision give nearly the same octrees", "statement": "After sampling the ShapeNet meshes and converting the clouds to npz archives, the data set finds for every mesh its cloud, with the points and normals in the order in which they were sampled: from the ply file rounded to single precision, from the archive rounded to half precision. Coordinates between -1/2 and 1/2 are stored with an error of at most 2^-13, components of normals with an error of at most 2^-12. With the point scale 0.5 the octrees of the two files touch: for depths up to 13, at every level from the full depth on, every non-empty node of one octree equals or touches a non-empty node of the other.", "quantifier": "All folders of meshes with names without slashes, all clouds with coordinates inside the unit cube by a margin of 2^-12, all depths up to 13 and full depths; the statement on nodes for any two clouds that differ point by point by at most the side of a cell.", "why_tests_cant": "Tests do not read shapes from archives, and a test compares a few clouds, none of them at the boundary of cells.", "anchors": ["projects/tools/image2shape.py:ply2npz", "projects/tools/image2shape.py:mesh2points", "projects/tools/image2shape.py:read_ply"]}
{"id": "C172", "title": "An octree knows of its cloud the occupied leaves and the means in them, and nothing else", "statement": "Two point clouds give the same octree, equal in all attributes at all depths, iff they occupy the same cells at the finest depth and have in each of them the same mean position, the same normalised sum of normals and the same mean feature. In particular a cloud may be thinned out to one point per leaf, the mean with normalised normal and mean feature: the octree, and so every prediction computed from it, stays the same, and the i-th new point belongs to the i-th leaf.", "quantifier": "All pairs of legal clouds with the same kinds of attributes, all batch sizes, depths and full depths.", "why_tests_cant": "Quantifies over all clouds that share the means of all leaves; a test compares single clouds.", "anchors": ["ocnn/octree/octree.py:Octree.build_octree"]}
{"id": "C173", "title": "Feature tensors of the wrong height are rejected", "statement": "An operation that is given a feature tensor whose number of rows is not the number of nodes of the layer (of all nodes, or of the non-empty nodes, as selected by nempty) raises an exception instead of computing something: the convolution and depth-wise convolution layers, the transposed convolutions, the pooling layers, the interpolations, octree_align, octree_depad and the global pooling.", "quantifier": "all octrees, depths, tensors of a wrong height, supported kernel sizes and strides, both settings of nempty", "why_tests_cant": "A wrong height is the usual symptom of mixing up depths or the nempty setting. Whether the mistake raises or silently gives numbers depends on the operation, the layer and the counts of the octree; a test sees one combination.", "anchors": ["ocnn/nn/octree_conv.py:OctreeConvBase.check_and_init", "ocnn/nn/octree_conv.py:OctreeConv.forward", "ocnn/nn/octree_pool.py:octree_avg_pool", "ocnn/nn/octree_pool.py:octree_max_pool", "ocnn/nn/octree_interp.py:octree_nearest_pts", "ocnn/nn/octree_interp.py:octree_linear_pts", "ocnn/nn/octree_align.py:octree_align", "ocnn/nn/octree_pad.py:octree_depad"]}
{"id": "C174", "title": "Linear interpolation is accurate in single precision, even where almost no weight is present", "statement": "In single precision, linear interpolation with bound_check at points with single precision coordinates in the cube differs from exact linear interpolation by at most 2^-17 of the largest absolute feature of the channel (up to 2^-90), whatever the order in which torch adds up, also at points where the weights of the existing nodes add up to almost nothing. With or without bound_check, an interpolated value exceeds the largest absolute feature by at most a factor of 1 + 2^-17: the division by the total weight does not blow up rounding errors.", "quantifier": "all octrees, depths up to 16, features, points with float32 coordinates in the cube, orders of summation and roundings with relative error 2^-24 and underflow 2^-149", "why_tests_cant": "The total weight, by which the code divides, can be as small as 2^-72, and the offset -0.5 and the fraction are computed by subtractions that can cancel. That no point and no order of summation gives a large error needs an analysis of all float32 coordinates.", "anchors": ["ocnn/nn/octree_interp.py:octree_linear_pts"]}
{"id": "C175", "title": "Operations on features keep the floating-point type of the features", "statement": "Padding, depadding, column gathering and scattering, conversion to voxels, max pooling and unpooling, global pooling, stochastic depth, nearest-neighbour interpolation and nearest-neighbour upsampling accept features of every floating-point type and return that type; group normalisation does when its parameters have the same type. octree_align, average pooling, linear interpolation and linear upsampling should do so too, but do not: with float32 as default type the first two accept float32 features only, linear upsampling accepts float32 only, and linear interpolation accepts float32 features at points that are not float64 or float64 features at float64 points. In all other cases they raise.", "quantifier": "all floating-point types of features, points and parameters, default types, depths and flags", "why_tests_cant": "The tests use float32 only. That an operation works in half or double precision depends on the type of every intermediate tensor, also of those that are created without a type or from integers.", "anchors": ["ocnn/nn/octree_align.py:search_value", "ocnn/nn/octree_pool.py:octree_avg_pool", "ocnn/nn/octree_interp.py:octree_linear_pts", "ocnn/nn/octree_interp.py:OctreeUpsample.forward", "ocnn/nn/octree_norm.py:OctreeGroupNorm.forward", "ocnn/nn/octree_pad.py:octree_pad"]}
{"id": "C176", "title": "Convolution works for all combinations of types, inside and outside of autocast", "statement": "The memory-saving convolution and deconvolution accept features, weights, biases and incoming gradients of any floating-point types, inside and outside of an autocast region, and whatever the number of chunks: the result and the gradient of the features have the type of the features, the gradient of the weights has the type of the weights. The depth-wise convolution does so outside of autocast. With direct_method the layers work exactly when features and weights have the same type after autocast, and the result has that type; so the two methods give results of the same type exactly when autocast changes nothing and both types are equal.", "quantifier": "all floating-point types of features, weights, biases and gradients, autocast settings of the forward and backward pass, strides, flags and numbers of chunks", "why_tests_cant": "A test fixes one combination of types. The products are computed in a type that depends on autocast while the scatter needs equal types, in every chunk.", "anchors": ["ocnn/nn/octree_conv.py:OctreeConvBase.forward_gemm", "ocnn/nn/octree_conv.py:OctreeConvBase.backward_gemm", "ocnn/nn/octree_conv.py:OctreeConvBase.weight_gemm", "ocnn/nn/octree_conv.py:OctreeConv.forward", "ocnn/nn/octree_conv.py:OctreeDeconv.forward", "ocnn/nn/octree_dwconv.py:OctreeDWConv.forward"]}
{"id": "C177", "title": "The data pipeline turns float32 clouds into float32 inputs, and augmentation accepts nothing else", "statement": "With distort, the transformation of a sample succeeds exactly when points and normals are float32 (torch's default type), and changes no type, whatever is drawn; clouds in double precision (numpy's default) or half precision raise. Without distort every cloud is accepted, and only the orientation of the normals along one axis changes a type (half-precision normals become float32). The signals of an octree have the types of its cloud. So a float32 cloud gives a float32 input of the network, for all settings and all selected features that exist.", "quantifier": "all types of points, normals and features, settings, random draws and feature strings", "why_tests_cant": "Whether a combination of types raises depends on the random draw (a scale of 1 leaves the cloud alone) and on settings; a test fixes one combination.", "anchors": ["ocnn/dataset.py:Transform.transform", "ocnn/dataset.py:Transform.rnd_parameters", "ocnn/octree/points.py:Points.rotate", "ocnn/octree/points.py:Points.orient_normal", "ocnn/octree/points.py:Points.scale", "ocnn/octree/octree.py:Octree.build_octree", "ocnn/octree/octree.py:Octree.get_input_feature"]}
{"id": "C178", "title": "merge_points records the number of points of every cloud", "statement": "batch_npt should hold the number of points of each merged cloud, so that predictions can be split by it, and batch_id the position of the cloud. For at most 2^24 clouds of at most 2^24 points this holds. A recorded size is right exactly when the size has at most 24 significant bits, and is wrong by at most one part in 2^24 otherwise; a cloud of 2^24 + 1 points is recorded with one point too few, so that the sizes do not add up to the number of points.", "quantifier": "all lists of clouds of all sizes", "why_tests_cant": "The sizes go through a float32 tensor; the error appears for more than sixteen million points only.", "anchors": ["ocnn/octree/points.py:merge_points", "projects/segmentation.py:SegSolver.eval_step"]}
{"id": "C179", "title": "An octree works on the device of its point cloud", "statement": "After build_octree all tensors of the layers are on the device of the points, and construct_all_neigh should work there; octrees on one device should be mergeable. This holds when the device was given to the constructor, as a string or an object, when octrees built from clouds on one device are merged (whatever their constructors were given), and when the octree is moved to another device afterwards. It fails with the default device for a cloud on a GPU: constructing the neighbours raises for every depth above full_depth, because the look-up tables stay on the CPU. In general the neighbours can be constructed exactly when the tables are on the device of the octree. And an octree of init_octree with device 'cpu' cannot be merged with an octree built on the CPU, since the string is compared with a device object.", "quantifier": "all depths, full depths, devices (strings, objects, with and without index), numbers of merged octrees", "why_tests_cant": "The tests run on a machine with one device, where tensors on different devices never meet.", "anchors": ["ocnn/octree/octree.py:Octree.__init__", "ocnn/octree/octree.py:Octree.reset", "ocnn/octree/octree.py:Octree.build_octree", "ocnn/octree/octree.py:Octree.construct_neigh", "ocnn/octree/octree.py:Octree.construct_all_neigh", "ocnn/octree/octree.py:Octree.to", "ocnn/octree/octree.py:merge_octrees", "ocnn/octree/octree.py:init_octree"]}
{"id": "C180", "title": "Average pooling in single precision is the mean of the existing neighbours", "statement": "In single precision octree_avg_pool returns, for every target node and channel, a number within 29/2^24 of the largest absolute feature of the channel (plus 2^-144 for underflow) of the true mean over the existing neighbours, for every supported kernel and stride and in whatever order the sparse product adds its terms: the constant 1e-8 of the denominator is lost by rounding and does not bias the mean. A channel that is 1 everywhere stays exactly 1 for rows of at most nine neighbours added in order (so for pooling with kernel 222), but not at nodes with all 27 neighbours of kernel 333, where it becomes 1 - 2^-22.", "quantifier": "all valid octrees, depths, kernels, strides, both nempty modes, feature fields, bounds and orders of addition", "why_tests_cant": "A test compares a few results with a tolerance; it cannot show that the error never exceeds a bound for other octrees, features or orders of addition.", "anchors": ["ocnn/nn/octree_pool.py:octree_avg_pool", "ocnn/nn/octree_pool.py:OctreeAvgPool.forward"]}
{"id": "C181", "title": "Drop path in floating point drops samples with the requested probability", "statement": "In float16, bfloat16, float32 and float64, with the random numbers torch.rand draws on the CPU, OctreeDropPath in training mode drops a sample for a fraction of the equally likely draws that differs from drop_prob by at most one spacing of the draws plus 3 roundings of the keep probability (2^-11 + 3/2^24 in float16, 4/2^24 in float32). All rows of a sample get the same factor, and every factor should be 0 or the rounded 1 / keep_prob (or 1). The latter holds for drop probabilities of at least 2^(1-q), q the bits of the arithmetic (24 for the first three types, 53 for float64), and fails below: with drop_prob = 2^-26 in float32 the largest draw gives the factor 2.", "quantifier": "all precisions up to float64, drop probabilities in (0, 1), draws, octrees, features and both settings of nempty and scale_by_keep", "why_tests_cant": "Whether a sample is dropped is random, and the draws at which the rounding matters have a probability of 2^-24: no test hits them.", "anchors": ["ocnn/nn/octree_drop.py:OctreeDropPath.forward"]}
{"id": "C182", "title": "Pooling undoes upsampling", "statement": "Pooling (octree_max_pool, octree_avg_pool with kernel '222' and stride 2) the result of octree_nearest_upsample gives every non-empty node its own features back: exactly for max pooling, up to the factor n/(n + 1e-8) (n the number of its upsampled children) for average pooling. With nempty=False empty nodes get zeros in max pooling. With nempty=True on an octree built from points this returns the input tensor at every depth from full_depth on; a non-empty node without non-empty children gets -inf. Max pooling, upsampling and max pooling again equals max pooling once, on every octree.", "quantifier": "all valid octrees, depths, feature tensors and both settings of nempty; all clouds in the cube for the built case", "why_tests_cant": "an encoder-decoder relies on this at every layer of every octree; unit tests compare one octree's tensors", "anchors": ["ocnn/nn/octree_pool.py:octree_max_pool", "ocnn/nn/octree_pool.py:octree_avg_pool", "ocnn/nn/octree_interp.py:octree_nearest_upsample"]}
{"id": "C183", "title": "Group normalisation ignores scale and offset", "statement": "Multiplying the features of a sample in a group of channels by a positive factor and adding a constant should not change what OctreeGroupNorm and OctreeInstanceNorm return. What holds: an offset t moves the centred features by t * eps / (n + eps), n being the number of entries of the group; a factor of at least 1 moves the normalised values away from 0 by a factor of at most sqrt(1 + eps / var); for constant features t the normalised value is at most |t| sqrt(eps) / (n + eps) instead of 0. With one node, one channel and the feature 1000 it is more than 0.95.", "quantifier": "all octrees, features, groups, factors and offsets per sample and group", "why_tests_cant": "tests use random features around 0 and many nodes, where the effect is below the tolerance", "anchors": ["ocnn/nn/octree_norm.py:OctreeGroupNorm", "ocnn/nn/octree_norm.py:OctreeInstanceNorm"]}
{"id": "C184", "title": "Constructing the neighbour tables again refreshes them", "statement": "Calling construct_all_neigh on an octree with full_depth at least 1 gives tables that do not depend on what the tables held before: stale, missing or foreign tables are replaced and the call fails exactly when it would have failed with none. Nothing else of the octree changes. A second call changes nothing. Copying the octree to a device before or after the call gives the same octree. Building the tables of merged octrees gives each sample the table it would have had on its own, with the neighbours renumbered by the nodes of the earlier samples.", "quantifier": "all octrees (well formed or not) and all previous tables; all devices; for merging all non-empty lists of well-formed single-sample octrees of equal depth and full depth at least 1, all depths", "why_tests_cant": "tests build the tables once, on fresh octrees, and compare one merged batch", "anchors": ["ocnn/octree/octree.py:Octree.construct_all_neigh", "ocnn/octree/octree.py:Octree.construct_neigh", "ocnn/octree/octree.py:Octree.to", "ocnn/octree/octree.py:Octree.merge_octrees"]}
{"id": "C185", "title": "The ShapeNet part script trains and reports every category by itself", "statement": "scripts/run_seg_shapenet.py starts one training for each ratio and category. Each one reads the lists that the data preparation wrote for its category, has as many outputs and classes as the category has parts, and logs to its own folder. The summary shows for each ratio and category the test/mIoU of the last line of that very run, one row per ratio, and two means that lie between the smallest and the largest IoU of the row. With between one hundredth and all of the data every category trains on at least one shape, for at least four epochs, with two drops of the learning rate before the end and tests in between; for the ratios suggested in the script the last epoch is tested, so that the reported value is that of the final network.", "quantifier": "all options and lists of ratios that differ in the two printed decimals, all earlier contents of the disk, all logs; all ratios in [1/100, 1] for the schedule; the seven suggested ratios and the sixteen categories for the last epoch; all values of the IoUs", "why_tests_cant": "the script runs for days and has no test; it was used with one ratio", "anchors": ["projects/scripts/run_seg_shapenet.py", "projects/tools/seg_shapenet.py:generate_filelist"]}
{"id": "C186", "title": "Parallel convolutions of any kernels are one convolution", "statement": "The sum of the outputs of two OctreeConv layers with different kernel shapes is the output of one layer whose kernel covers both, with the sums of their matrices offset by offset and of their biases. A layer of any supported kernel shape equals the 3x3x3 layer with zeros at the other offsets. A layer without bias is linear. A layer of stride 1 with the unit matrix at the centre, whatever its kernel shape, returns its input. Networks can therefore be re-parameterised without changing what they compute.", "quantifier": "all well-formed octrees with exact neighbour tables, all depths, strides 1 and 2, nempty True and False, all supported kernel shapes in every form the constructor takes, the buffered and the direct method, all features and weights over a commutative semiring", "why_tests_cant": "the order of the offsets in the weights differs between kernel shapes and each shape has its own lookup table; tests compare one shape at a time with a dense convolution", "anchors": ["ocnn/nn/octree_conv.py:OctreeConv", "ocnn/nn/octree_conv.py:OctreeConvBase", "ocnn/octree/octree.py:Octree.get_neigh"]}
{"id": "C187", "title": "What SegNet predicts at a point depends only on the points near it", "statement": "In evaluation mode and with empty nodes (nempty=False, the setting in which SegNet runs) the prediction of SegNet at a query point depends only on the points (with normals and features) of the same sample whose coordinates differ by less than 5*2^stages - 2 finest voxels (half a voxel more with linear interpolation); the points further away, the other samples and the order of the points may be changed at will, and the pooling positions that the encoder hands to the decoder carry nothing further. So cropping a scene with inbox_mask to a box that leaves this margin does not change the prediction. With the 3 stages of seg_shapenet.yaml the radius is 38 voxels: the whole cube at the depth 5 used there, less than a third of it at depth 7.", "quantifier": "All parameters in evaluation mode, all legal pairs of clouds with the same points near the query, all features, all numbers of stages smaller than the depth, both interpolations; with linear interpolation the query is half a cell away from the sides of the cube.", "why_tests_cant": "A test compares two clouds; that nothing outside the radius can matter is a statement about all clouds, weights and depths, and pooling positions are an unusual path for information.", "anchors": ["ocnn/models/segnet.py:SegNet.forward", "ocnn/nn/octree_pool.py:octree_max_pool", "ocnn/nn/octree_pool.py:octree_max_unpool", "ocnn/octree/points.py:Points.inbox_mask"]}
{"id": "C188", "title": "Transposed convolution, upsampling and average pooling are convolutions with special kernels", "statement": "OctreeDeconv with stride 1 and an odd kernel is the OctreeConv with the same kernel shape whose matrix at every offset is the transposed matrix of the opposite offset, with the same bias. OctreeDeconv with kernel 2, stride 2, identity matrices and no bias is octree_nearest_upsample. octree_avg_pool is OctreeConv with identity matrices and no bias, each row divided by the number of existing neighbours plus 1e-8 (with stride 2: for nempty=True).", "quantifier": "all well-formed octrees with neighbour tables, depths, kernel shapes, channel numbers, weights, inputs, nempty flags, buffers that hold one row", "why_tests_cant": "The two sides go through different index computations for every octree; tests compare a few random octrees.", "anchors": ["ocnn/nn/octree_conv.py:OctreeDeconv", "ocnn/nn/octree_conv.py:OctreeConv", "ocnn/nn/octree_pool.py:octree_avg_pool", "ocnn/nn/octree_interp.py:octree_nearest_upsample"]}
{"id": "C189", "title": "Batch normalisation can be folded into the layer before it in evaluation mode", "statement": "In evaluation mode OctreeConvBn computes the same as one OctreeConv with a bias, whose matrices have every output channel multiplied by weight / sqrt(running_var + eps) of the normalisation and whose bias is bias - running_mean * weight / sqrt(running_var + eps). The same holds for OctreeDeconvBnRelu with one OctreeDeconv and a ReLU, and for Conv1x1Bn with one Conv1x1.", "quantifier": "all parameters, channel numbers, kernel shapes, strides, nempty flags, well-formed octrees with neighbour tables, depths and inputs of the right height", "why_tests_cant": "Whether the bias reaches the rows of empty nodes depends on stride, nempty and the octree; a test with stride 1 or nempty=True does not show the difference.", "anchors": ["ocnn/modules/modules.py:OctreeConvBn", "ocnn/modules/modules.py:OctreeDeconvBnRelu", "ocnn/modules/modules.py:Conv1x1Bn", "ocnn/nn/octree_conv.py:OctreeConv"]}
{"id": "C190", "title": "A convolution in front of a batch normalisation needs no bias", "statement": "In training mode the result of an OctreeConv followed by the batch normalisation of the modules does not depend on the bias of the OctreeConv, so the modules lose nothing by leaving it out. The normalised channels have mean bias and variance weight^2 * v / (v + eps), where v is the variance before, and a single row raises ValueError.", "quantifier": "all parameters, biases, channel numbers, kernel shapes, strides, nempty flags, well-formed octrees with neighbour tables, depths and inputs of the right height", "why_tests_cant": "It depends on whether the bias reaches every row, which only octrees with empty nodes show.", "anchors": ["ocnn/modules/modules.py:OctreeConvBn", "ocnn/modules/modules.py:OctreeConvBnRelu", "ocnn/nn/octree_conv.py:OctreeConv"]}
{"id": "C191", "title": "A Conv1x1 next to an OctreeConv merges with it", "statement": "A Conv1x1 without bias behind an OctreeConv computes the same as one OctreeConv whose matrices are the products with the matrix of the Conv1x1 and whose bias is multiplied by it. A Conv1x1 without bias in front of an OctreeConv computes the same as one OctreeConv with the products of the matrices and the same bias. Both hold for stride 1 and 2 and for nempty=True and False.", "quantifier": "all parameters, channel numbers, kernel shapes, strides, nempty flags, well-formed octrees with neighbour tables, depths and inputs of the right height", "why_tests_cant": "It relates two index computations over all octrees, including missing neighbours and empty nodes.", "anchors": ["ocnn/modules/modules.py:Conv1x1", "ocnn/nn/octree_conv.py:OctreeConv"]}
